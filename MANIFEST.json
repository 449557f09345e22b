{
 "claims": [
  {
   "property": "C01",
   "status": "proved",
   "theorems": [
    "Nx.c01_readable_round_trip",
    "Nx.c01_readable_no_raw_newline"
   ],
   "note": "Round trip of nx_fputs_readable / nx_xstr_from_readable for every byte string."
  },
  {
   "property": "C02",
   "status": "proved",
   "theorems": [
    "Nx.c02_from_readable_ok_iff",
    "Nx.c02_from_readable_fatal_iff",
    "Nx.c02_from_readable_no_ub",
    "Nx.c02_from_readable_length"
   ],
   "note": "Exact characterisation: the conversion succeeds iff the body is an escaped form, aborts iff not, and never reads out of bounds."
  },
  {
   "property": "C03",
   "status": "proved",
   "theorems": [
    "Nx.c03_double_quoted_round_trip",
    "Nx.c03_from_double_quoted_ok_iff",
    "Nx.c03_from_double_quoted_fatal_iff",
    "Nx.c03_from_double_quoted_no_ub"
   ],
   "note": "Round trip and exact success/abort characterisation of the double-quoted form."
  },
  {
   "property": "C04",
   "status": "proved",
   "theorems": [
    "Nx.c04_strread_strwrite",
    "Nx.c04_read_strings",
    "Nx.c04_truncated_fails",
    "Nx.c04_read_strings_truncated",
    "Nx.c04_length_wraps_ub"
   ],
   "note": "For strings shorter than 2^31 bytes; c04_length_wraps_ub shows the bound is needed."
  },
  {
   "property": "C05",
   "status": "proved",
   "theorems": [
    "Nx.c05_string_array_history",
    "Nx.c05_free_no_leak",
    "Nx.c05_find",
    "Nx.c05_find_null_ub"
   ],
   "note": "Refinement to a list of optional strings for every history (sizes below 715827875 so that the int capacity computation cannot overflow), plus free without leak and first-match search."
  },
  {
   "property": "C06",
   "status": "proved",
   "theorems": [
    "Nx.c06_round_trip",
    "Nx.c06_truncated_fails"
   ],
   "note": "Round trip into an array with arbitrary previous content; every proper prefix is rejected."
  },
  {
   "property": "C07",
   "status": "partial",
   "theorems": [
    "Nx.c07_set_from_get_partial",
    "Nx.c07_self_set_ub"
   ],
   "note": "Proved for distinct indices; assigning an element to itself reads freed memory (c07_self_set_ub)."
  },
  {
   "property": "C08",
   "status": "partial",
   "theorems": [
    "Nx.c08_chunks_readable_partial",
    "Nx.c08_chunks_partial",
    "Nx.c08_single_call",
    "Nx.c08_call_at_end_ub"
   ],
   "note": "Proved for every chunk history whose calls are made while bytes are left, and for every history if the element behind the length array is readable; a call at the end cursor reads past the array (c08_call_at_end_ub)."
  },
  {
   "property": "C09",
   "status": "proved",
   "theorems": [
    "Nx.c09_hash_text",
    "Nx.c09_hash_text_injective"
   ],
   "note": ""
  },
  {
   "property": "C10",
   "status": "partial",
   "theorems": [
    "Nx.c10_sha256_fips_partial",
    "Nx.c10_sha256_fips_readable_partial",
    "Nx.c10_block_multiple_ub",
    "Nx.c10_spec_padding",
    "Nx.c10_spec_constants"
   ],
   "note": "FIPS 180-4 digest proved for every message whose length is not a positive multiple of 64, and for all messages when the word behind the length variable is readable (its value is irrelevant); for positive multiples of 64 the code reads out of bounds (c10_block_multiple_ub)."
  },
  {
   "property": "C11",
   "status": "partial",
   "theorems": [
    "Nx.c11_sha256_multi_partial",
    "Nx.c11_fills_blocks_ub",
    "Nx.c11_sha256_multi_readable_partial"
   ],
   "note": "As C10, for every split; exact condition of the out-of-bounds read in FillsBlocks / c11_fills_blocks_ub."
  },
  {
   "property": "C12",
   "status": "proved",
   "theorems": [
    "Nx.c12_bit_count32",
    "Nx.c12_bit_count64"
   ],
   "note": ""
  },
  {
   "property": "C13",
   "status": "proved",
   "theorems": [
    "Nx.c13_rotr32",
    "Nx.c13_rotr64",
    "Nx.c13_rotr32_zero_ub",
    "Nx.c13_compose_split",
    "Nx.c13_compose_value",
    "Nx.c13_split32_value",
    "Nx.c13_split64_value",
    "Nx.c13_split_compose"
   ],
   "note": "For rotation amounts 0<n<32 as claimed; c13_rotr32_zero_ub shows amount 0 is undefined."
  },
  {
   "property": "C14",
   "status": "proved",
   "theorems": [
    "Nx.c14_bit_array_history"
   ],
   "note": ""
  },
  {
   "property": "C15",
   "status": "proved",
   "theorems": [
    "Nx.c15_call_effect",
    "Nx.c15_size_le_capacity",
    "Nx.c15_one_owner",
    "Nx.c15_no_leak",
    "Nx.c15_user_memory_kept",
    "Nx.c15_self_copy_ub"
   ],
   "note": "histories of all ten calls on any number of blocks; allocation is assumed to succeed; copying a block onto itself is excluded and proved undefined (c15_self_copy_ub); realloc modelled as always moving"
  },
  {
   "property": "C16",
   "status": "proved",
   "theorems": [
    "Nx.c16_consume_position",
    "Nx.c16_end_sticky",
    "Nx.c16_visible_all",
    "Nx.c16_byte_255_ends"
   ],
   "note": "For every text and number of calls; the byte 255 acts as end of input because char is signed (c16_byte_255_ends); counters assumed not to overflow."
  },
  {
   "property": "C17",
   "status": "proved",
   "theorems": [
    "Nx.c17_match",
    "Nx.c17_match_255_at_end",
    "Nx.c17_matchers_return_token"
   ],
   "note": "Literals without the byte 255 (c17_match_255_at_end shows the exception). The number and string matchers have no failure return: they return a token or abort."
  },
  {
   "property": "C18",
   "status": "partial",
   "theorems": [
    "Nx.c18_number_partial",
    "Nx.c18_longest",
    "Nx.c18_incomplete_is_error",
    "Nx.c18_accepts_point_five"
   ],
   "note": "Exact characterisation when called at a minus sign or digit (as all callers do); the claim as stated is false: \"1.x\" aborts (c18_incomplete_is_error), \".5\" is accepted when called there (c18_accepts_point_five)."
  },
  {
   "property": "C19",
   "status": "proved",
   "theorems": [
    "Nx.c19_quoted_string",
    "Nx.c19_unique"
   ],
   "note": "At an opening quote: succeeds exactly on well-formed strings, otherwise aborts."
  },
  {
   "property": "C20",
   "status": "partial",
   "theorems": [
    "Nx.c20_print_parse_partial",
    "Nx.c20_byte_255_fails"
   ],
   "note": "All values without the byte 255 in strings and without false/null nodes, every pretty-print level; c20_byte_255_fails is the counterexample for the byte 255. Number texts must be valid number literals."
  },
  {
   "property": "C21",
   "status": "partial",
   "theorems": [
    "Nx.c21_literals_partial",
    "Nx.c21_false_null_become_true"
   ],
   "note": "False of the code: false and null are read as true nodes in every document (c21_false_null_become_true); proved for documents without them."
  },
  {
   "property": "C22",
   "status": "partial",
   "theorems": [
    "Nx.c22_accepted_partial",
    "Nx.c22_documents_accepted",
    "Nx.c22_trailing_text_accepted"
   ],
   "note": "Exact characterisation (iff) of what is accepted; the claim as stated is false because text after the root value is not checked beyond one token (c22_trailing_text_accepted)."
  },
  {
   "property": "C23",
   "status": "proved",
   "theorems": [
    "Nx.c23_terminates",
    "Nx.c23_fuel_irrelevant"
   ],
   "note": "Recursion is bounded by fuel 3*length+4, running out of it is the outcome ub, which is excluded. C stack depth is not modelled."
  },
  {
   "property": "C24",
   "status": "proved",
   "theorems": [
    "Nx.c24_containers",
    "Nx.c24_shared_node"
   ],
   "note": "Heap model with down/right/last_child; any interleaving of constructions on any number of containers; a node may be added to at most one container (c24_shared_node shows why)."
  },
  {
   "property": "C25",
   "status": "partial",
   "theorems": [
    "Nx.c25_int",
    "Nx.c25_uchar",
    "Nx.c25_size",
    "Nx.c25_char",
    "Nx.c25_string",
    "Nx.c25_string_null",
    "Nx.c25_bool_partial",
    "Nx.c25_false_becomes_true",
    "Nx.c25_int_array",
    "Nx.c25_string_array",
    "Nx.c25_as_string_array"
   ],
   "note": "ints, sizes (all 64-bit values), unsigned chars, chars, strings, int arrays, string arrays (also as string array object) round trip for every value, after any earlier and later construction calls; booleans: only true, false is read back as true (proved)"
  },
  {
   "property": "C26",
   "status": "partial",
   "theorems": [
    "Nx.c26_table_partial",
    "Nx.c26_quoted_round_trip_partial",
    "Nx.c26_byte_255"
   ],
   "note": "Full round trip for every table of missing, unquoted and quoted cells over bytes other than 0 and 255; the byte 255 is read as end of text (c26_byte_255)."
  },
  {
   "property": "C27",
   "status": "proved",
   "theorems": [
    "Nx.c27_total",
    "Nx.c27_sound",
    "Nx.c27_ragged",
    "Nx.c27_rejects"
   ],
   "note": "Parser accepts exactly the texts spelling a rectangular table (c27_rejects, c27_sound), rejects ragged ones, never undefined."
  },
  {
   "property": "C28",
   "status": "proved",
   "theorems": [
    "Nx.c28_column_types",
    "Nx.c28_order_irrelevant",
    "Nx.c28_parsed"
   ],
   "note": "Column type is the join of the cell types; independent of order and repetition of rows and of labels."
  },
  {
   "property": "C29",
   "status": "partial",
   "theorems": [
    "Nx.c29_octal_wrong",
    "Nx.c29_hex_wrong",
    "Nx.c29_octal_ub",
    "Nx.c29_decimal_partial",
    "Nx.c29_int_round_trip_partial"
   ],
   "note": "False for octal and hexadecimal texts (c29_octal_wrong, c29_hex_wrong, c29_octal_ub); proved for decimal texts."
  },
  {
   "property": "C30",
   "status": "proved",
   "theorems": [
    "Nx.c30_history",
    "Nx.c30_last_value",
    "Nx.c30_cleared",
    "Nx.c30_never_stored",
    "Nx.c30_defined"
   ],
   "note": "Every history of calls on a new data frame returns what the same calls return on a table of cells and aborts exactly when the table calls do; last stored value, cleared and never stored cells as corollaries. Stored texts never contain the terminating zero (C strings)."
  },
  {
   "property": "C31",
   "status": "proved",
   "theorems": [
    "Nx.c31_store_read",
    "Nx.c31_levels_distinct",
    "Nx.c31_codes_stable",
    "Nx.c31_make_factor"
   ],
   "note": "Store/read, distinct levels, stable codes over every history, conversion of a string column keeps the text of every cell."
  },
  {
   "property": "C32",
   "status": "partial",
   "theorems": [
    "Nx.c32_round_trip_partial",
    "Nx.c32_label_quote",
    "Nx.c32_label_backslash",
    "Nx.c32_integral_double",
    "Nx.c32_all_missing",
    "Nx.c32_single_missing",
    "Nx.c32_no_columns"
   ],
   "note": "False in general: witnesses for labels with quotes or backslashes, double columns with integral values only, all-missing integer columns, missing cells in a single column, no columns. Proved for all other (Savable) frames with strtod, atof and %.17g assumed faithful on the values stored; factor columns come back as string columns with the same texts."
  },
  {
   "property": "C33",
   "status": "partial",
   "theorems": [
    "Nx.c33_never_returns",
    "Nx.c33_no_result",
    "Nx.c33_stuck",
    "Nx.c33_read_partial"
   ],
   "note": "False for every file: the loop increments the wrong variable and never ends (c33_never_returns, c33_no_result, c33_stuck). Only the reading of the stream is shown to end within its buffer."
  },
  {
   "property": "C34",
   "status": "partial",
   "theorems": [
    "Nx.c34_table_partial",
    "Nx.c34_illegal",
    "Nx.c34_same_kind_lost",
    "Nx.c34_strict_overflow",
    "Nx.c34_format"
   ],
   "note": "Exact lookup table, defaults, taken names and illegal names for all declaration sequences with one name or a short and a long name; false for two names of one kind (witness theorem); hash overflow of int undefined for long names unless it wraps (witness theorem)"
  },
  {
   "property": "C35",
   "status": "proved",
   "theorems": [
    "Nx.c35_result",
    "Nx.c35_accepts",
    "Nx.c35_rejects",
    "Nx.c35_history",
    "Nx.c35_int_text",
    "Nx.c35_unique"
   ],
   "note": "Result characterised by a unique left-to-right reading, for options with hashable names; acceptance, rejection and independence of earlier parses; atof is a parameter; where int overflow does not wrap the names and arguments must have hashes without overflow"
  },
  {
   "property": "C36",
   "status": "partial",
   "theorems": [
    "Nx.c36_matrix",
    "Nx.c36_matrix_absent_weight",
    "Nx.c36_list_partial",
    "Nx.c36_symmetric",
    "Nx.c36_list_count_wrong",
    "Nx.c36_out_of_range"
   ],
   "note": "Both representations refine the list of insertions. The edge count of the adjacency list is never updated by the code (c36_list_count_wrong), for lists only the edges are proved. Matrix: weights other than DBL_MAX (c36_matrix_absent_weight) and n*n up to INT_MAX."
  },
  {
   "property": "C37",
   "status": "proved",
   "theorems": [
    "Nx.c37_transpose",
    "Nx.c37_twice"
   ],
   "note": "m*n up to INT_MAX, elements of any type."
  },
  {
   "property": "C38",
   "status": "proved",
   "theorems": [
    "Nx.c38_convolve_sym",
    "Nx.c38_convolve_box",
    "Nx.c38_border",
    "Nx.c38_mirror_too_wide"
   ],
   "note": "Exact rational arithmetic in place of float. Mirrored borders need fewer border than data elements (c38_mirror_too_wide shows why)."
  },
  {
   "property": "C39",
   "status": "partial",
   "theorems": [
    "Nx.c39_mean",
    "Nx.c39_stdev",
    "Nx.c39_pairs",
    "Nx.c39_mean_between",
    "Nx.c39_mean_least",
    "Nx.c39_distance",
    "Nx.c39_stdev_zero",
    "Nx.c39_moments_order",
    "Nx.c39_moments_affine",
    "Nx.c39_moments_int",
    "Nx.c39_moments_empty",
    "Nx.c39_ordered",
    "Nx.c39_double_partial",
    "Nx.c39_int_partial",
    "Nx.c39_single",
    "Nx.c39_order_independent",
    "Nx.c39_int_overflow",
    "Nx.c39_infinite"
   ],
   "note": "Order statistics for doubles other than infinities and NaN and for ints in [-2^30, 2^30-1]; c39_int_overflow and c39_infinite are failing inputs outside. Mean, standard deviation and range between the quartiles: c39_mean, c39_stdev, c39_pairs, c39_mean_between, c39_mean_least, c39_distance, c39_stdev_zero, c39_moments_* over the real numbers without rounding, for every sample; c39_ordered. qsort is any function that sorts."
  },
  {
   "property": "C40",
   "status": "proved",
   "theorems": [
    "Nx.c40_usac",
    "Nx.c40_calls_are_scores"
   ],
   "note": "Callbacks are arbitrary and may change the caller data; they do not modify the model they check or score. Scores are compared by any irreflexive transitive relation, so NaN is included. Termination of the main loop depends on the callback and is not claimed."
  },
  {
   "property": "C41",
   "status": "proved",
   "theorems": [
    "Nx.c41_truncated",
    "Nx.c41_xread_truncated",
    "Nx.c41_round_trip",
    "Nx.c41_every_truncation"
   ],
   "note": "Bit patterns of all fields; every truncation point; the rest of the stream is kept."
  },
  {
   "property": "C42",
   "status": "proved",
   "theorems": [
    "Nx.c42_nonmax"
   ],
   "note": "Corners in raster order with rows from 0 on; scores are integers as the FAST detector computes them."
  },
  {
   "property": "C43",
   "status": "proved",
   "theorems": [
    "Nx.c43_detect",
    "Nx.c43_negative_threshold"
   ],
   "note": "Thresholds from 0 to INT_MAX-255 (for negative ones the claim is false, c43_negative_threshold); both decision trees are transcribed in full and checked by a proven checker; all reads in the image."
  },
  {
   "property": "C44",
   "status": "proved",
   "theorems": [
    "Nx.c44_score",
    "Nx.c44_above_255_loops"
   ],
   "note": "For corners at the given threshold, 0 or more. A start value above 255 makes the search loop for ever (c44_above_255_loops)."
  },
  {
   "property": "C45",
   "status": "proved",
   "theorems": [
    "Nx.c45_hamming",
    "Nx.c45_metric"
   ],
   "note": "Descriptors of up to 268435455 octets (beyond, an int can overflow)."
  },
  {
   "property": "C46",
   "status": "partial",
   "theorems": [
    "Nx.c46_round_trip_partial",
    "Nx.c46_swapped",
    "Nx.c46_false"
   ],
   "note": "False of the code: reading swaps radius and number of octets (c46_swapped for every extractor, c46_false a failing one). The round trip is proved when the two are equal."
  },
  {
   "property": "C47",
   "status": "proved",
   "theorems": [
    "Nx.c47_gray",
    "Nx.c47_gray_as_color",
    "Nx.c47_color",
    "Nx.c47_color_as_gray",
    "Nx.c47_cut"
   ],
   "note": "Both loaders, all modes, any stride, trailing bytes allowed; images whose size fits int; a file cut at any byte is rejected by both. Files are byte lists and never fail."
  },
  {
   "property": "C48",
   "status": "partial",
   "theorems": [
    "Nx.c48_downsample",
    "Nx.c48_upsample",
    "Nx.c48_upsample_uc",
    "Nx.c48_up_down",
    "Nx.c48_upsample_empty",
    "Nx.c48_smooth_x_partial",
    "Nx.c48_smooth_y_partial",
    "Nx.c48_smooth_x_bounds_partial",
    "Nx.c48_smooth_y_bounds_partial",
    "Nx.c48_smooth_x_narrow",
    "Nx.c48_smooth_y_low"
   ],
   "note": "Plain downsampling: proved for all images and destinations (any sample type). Upsampling: proved for all non-empty images (8-bit: mean of the four neighbours rounded down), up then down restores the image; empty images access memory outside (proved). Smoothing downsampling: proved for at least four columns/rows (8-bit: floor of the 1-6-11-6-1 mean with reflection), undefined access for fewer (proved). Partial: the statement is false for empty and small images; destination and source are taken not to be the same image, for which see C132."
  },
  {
   "property": "C49",
   "status": "partial",
   "theorems": [
    "Nx.c49_black",
    "Nx.c49_to_float",
    "Nx.c49_white",
    "Nx.c49_dark_partial"
   ],
   "note": "False: the clamp is written min(0, max(255, v)), so every converted image is black (proved for all samples and roundings), witness white pixel. c49_dark_partial: holds for samples of at most 1/510 only. Samples are rationals, NaN and infinities are not modelled."
  },
  {
   "property": "C50",
   "status": "proved",
   "theorems": [
    "Nx.c50_getline",
    "Nx.c50_end_of_stream",
    "Nx.c50_lines"
   ],
   "note": "Lines shorter than 2^30 bytes; the end of the stream is reported by the return value 0, the branch returning -1 cannot be reached."
  },
  {
   "property": "C51",
   "status": "proved",
   "theorems": [
    "Nx.c51_step",
    "Nx.c51_history",
    "Nx.c51_overflow"
   ],
   "note": "max_n_keys up to 2117833; c51_overflow shows that larger ones overflow an int."
  },
  {
   "property": "C52",
   "status": "partial",
   "theorems": [
    "Nx.c52_ivec_partial",
    "Nx.c52_svec_partial",
    "Nx.c52_max_val_at_max_idx_partial",
    "Nx.c52_all_minimal"
   ],
   "note": "Vectors with an element above the smallest value (INT_MIN, -FLT_MAX); for others -1 is returned, c52_all_minimal."
  },
  {
   "property": "C53",
   "status": "proved",
   "theorems": [
    "Nx.c53_compute"
   ],
   "note": "(int)(v*scale) is any monotone function; the sums x + offset are taken not to overflow."
  },
  {
   "property": "C54",
   "status": "proved",
   "theorems": [
    "Nx.c54_kernel",
    "Nx.c54_kernel_size",
    "Nx.c54_constant_kept"
   ],
   "note": "Exact rational arithmetic; exp is an arbitrary positive function."
  },
  {
   "property": "C55",
   "status": "partial",
   "theorems": [
    "Nx.c55_gray_partial",
    "Nx.c55_gray_changes",
    "Nx.c55_black_white",
    "Nx.c55_file_changes"
   ],
   "note": "Proved for all colours: rounded down weighted mean, or one less when the mean is an integer. The exact statement is false: gray 7 becomes 6 (witness), also through files."
  },
  {
   "property": "C56",
   "status": "partial",
   "theorems": [
    "Nx.c56_keypoint",
    "Nx.c56_keypoint_array",
    "Nx.c56_fp_array",
    "Nx.c56_keypoint_partial",
    "Nx.c56_id_lost"
   ],
   "note": "position, level and floating point texts proved for all keypoints and arrays; ids outside the range of int are lost (proved)"
  },
  {
   "property": "C57",
   "status": "proved",
   "theorems": [
    "Nx.c57_mul",
    "Nx.c57_mul4",
    "Nx.c57_eye",
    "Nx.c57_det",
    "Nx.c57_inv_det",
    "Nx.c57_inv",
    "Nx.c57_inv_singular",
    "Nx.c57_mul_ua",
    "Nx.c57_transform",
    "Nx.c57_xptFx",
    "Nx.c57_sub_frob",
    "Nx.c57_rigid",
    "Nx.c57_rigid_set",
    "Nx.c57_cross_dot",
    "Nx.c57_to_unit",
    "Nx.c57_dmat_mul",
    "Nx.c57_dmat_mul_overlap",
    "Nx.c57_dmat_set",
    "Nx.c57_to_euclidean",
    "Nx.c57_norm_sq",
    "Nx.c57_norm",
    "Nx.c57_axpy",
    "Nx.c57_axpy_self",
    "Nx.c57_sdmat3_inv"
   ],
   "note": "Exact arithmetic over any field; rounding is not modelled. c57_dmat_mul_overlap: the unchecked condition on the leading dimension of the result is needed."
  },
  {
   "property": "C58",
   "status": "proved",
   "theorems": [
    "Nx.c58_algebra",
    "Nx.c58_rotate",
    "Nx.c58_rotate_matrix",
    "Nx.c58_to_R_rotation",
    "Nx.c58_compose",
    "Nx.c58_to_unit",
    "Nx.c58_to_R_from_R",
    "Nx.c58_from_R_to_R",
    "Nx.c58_axis_angle",
    "Nx.c58_to_Rt",
    "Nx.c58_to_Rt_short"
   ],
   "note": "Exact real arithmetic; c58_to_R_from_R and c58_from_R_to_R cover all four branches."
  },
  {
   "property": "C59",
   "status": "proved",
   "theorems": [
    "Nx.c59_euler_zyx",
    "Nx.c59_euler_xyz",
    "Nx.c59_euler_inverse",
    "Nx.c59_axis_angle",
    "Nx.c59_axis_angle_zero",
    "Nx.c59_invert"
   ],
   "note": "Exact real arithmetic; for the zero axis the result is not a rotation (c59_axis_angle_zero)."
  },
  {
   "property": "C60",
   "status": "proved",
   "theorems": [
    "Nx.c60_similarity",
    "Nx.c60_affine",
    "Nx.c60_affine_no_tilt",
    "Nx.c60_perspective",
    "Nx.c60_perspective_unique",
    "Nx.c60_perspective_regular",
    "Nx.c60_perspective_det",
    "Nx.c60_perspective_incomplete",
    "Nx.c60_perspective_degenerate"
   ],
   "note": "Exact arithmetic. c60_perspective_incomplete and c60_perspective_degenerate: the returned value is zero for some corners in general position and nonzero for some degenerate ones."
  },
  {
   "property": "C61",
   "status": "partial",
   "theorems": [
    "Nx.c61_transfer",
    "Nx.c61_transfer_mul",
    "Nx.c61_transfer_inv",
    "Nx.c61_4pt_partial",
    "Nx.c61_4pt_repeated",
    "Nx.c61_4pt_unchecked",
    "Nx.c61_4pt_incomplete"
   ],
   "note": "False as stated: c61_4pt_unchecked, the source points are not checked, three of them on a line give a singular matrix and a nonzero return value. c61_4pt_partial proves the claim for source points in general position whose own determinant is nonzero. c61_4pt_incomplete: some solvable configurations are refused."
  },
  {
   "property": "C62",
   "status": "proved",
   "theorems": [
    "Nx.c62_dlt",
    "Nx.c62_dlt_exact",
    "Nx.c62_dlt_value",
    "Nx.c62_dlt_few",
    "Nx.c62_dlt_inliers"
   ],
   "note": "The decomposition itself (LAPACK) is a hypothesis, shown to be satisfiable. c62_dlt_value: for exactly four correspondences the returned singular value is read from an uninitialised element."
  },
  {
   "property": "C63",
   "status": "proved",
   "theorems": [
    "Nx.c63_mark",
    "Nx.c63_mark_inv",
    "Nx.c63_error_fwd",
    "Nx.c63_error_zero",
    "Nx.c63_error_no_inliers",
    "Nx.c63_error_sym"
   ],
   "note": "Exact arithmetic; division by zero is an explicit undefined result."
  },
  {
   "property": "C64",
   "status": "partial",
   "theorems": [
    "Nx.c64_check",
    "Nx.c64_check_partial",
    "Nx.c64_check_scale"
   ],
   "note": "False as stated: the vectors are divided by the square of their length, so the check depends on the scale (c64_check_scale). c64_check says exactly what is checked, c64_check_partial when that implies the intended condition."
  },
  {
   "property": "C65",
   "status": "proved",
   "theorems": [
    "Nx.c65_homography_mat",
    "Nx.c65_homography",
    "Nx.c65_fundamental",
    "Nx.c65_fundamental_mat",
    "Nx.c65_reset",
    "Nx.c65_round_trip",
    "Nx.c65_tolerance",
    "Nx.c65_inliers",
    "Nx.c65_normalized",
    "Nx.c65_empty"
   ],
   "note": "Exact arithmetic. c65_empty: without matches the means are divisions by zero."
  },
  {
   "property": "C66",
   "status": "proved",
   "theorems": [
    "Nx.c66_distance",
    "Nx.c66_distance_none",
    "Nx.c66_mark",
    "Nx.c66_rank",
    "Nx.c66_estimate",
    "Nx.c66_exact",
    "Nx.c66_value",
    "Nx.c66_inliers",
    "Nx.c66_8pt"
   ],
   "note": "The decompositions are hypotheses, shown to be satisfiable. c66_value: for exactly eight matches the returned singular value is read from an uninitialised element."
  },
  {
   "property": "C67",
   "status": "partial",
   "theorems": [
    "Nx.c67_from_rt",
    "Nx.c67_constraint",
    "Nx.c67_from_fundamental_transposed",
    "Nx.c67_from_fundamental_partial",
    "Nx.c67_from_fundamental_wrong",
    "Nx.c67_decompose_rotations",
    "Nx.c67_decompose",
    "Nx.c67_singular_values",
    "Nx.c67_recover"
   ],
   "note": "False as stated for nx_essential_from_fundamental: it uses the other triangle of its second array (c67_from_fundamental_wrong, with a witness; c67_from_fundamental_transposed says what it computes). c67_from_fundamental_partial proves that part for second cameras without principal point and skew. Everything about R and t and the decomposition is proved."
  },
  {
   "property": "C68",
   "status": "proved",
   "theorems": [
    "Nx.c68_signs",
    "Nx.c68_sum",
    "Nx.c68_best",
    "Nx.c68_chirality",
    "Nx.c68_recover",
    "Nx.c68_none"
   ],
   "note": "Exact arithmetic. The base line must not be the ray of a match."
  },
  {
   "property": "C69",
   "status": "partial",
   "theorems": [
    "Nx.c69_sample",
    "Nx.c69_index_partial",
    "Nx.c69_index_out",
    "Nx.c69_out_of_bounds",
    "Nx.c69_select4_partial",
    "Nx.c69_select4_duplicate",
    "Nx.c69_select4_ends",
    "Nx.c69_select8_partial",
    "Nx.c69_select8_duplicate"
   ],
   "note": "False as stated: the 128 largest numbers give the index n (c69_index_out, c69_out_of_bounds), and the comparisons leave out pairs, so that equal indices are possible (c69_select4_duplicate, c69_select8_duplicate). c69_index_partial, c69_select4_partial and c69_select8_partial prove what holds."
  },
  {
   "property": "C70",
   "status": "proved",
   "theorems": [
    "Nx.c70_sequence_exists",
    "Nx.c70_sequence_unique",
    "Nx.c70_recursion",
    "Nx.c70_gen_all",
    "Nx.c70_next",
    "Nx.c70_next64",
    "Nx.c70_next64_odd",
    "Nx.c70_stream",
    "Nx.c70_fill",
    "Nx.c70_fill_eq_draws",
    "Nx.c70_certification",
    "Nx.c70_init",
    "Nx.c70_seeded_stream",
    "Nx.c70_never_zero",
    "Nx.c70_zero_stuck"
   ],
   "note": "Portable little-endian code, which is what the build files select. The length of the period is not proved."
  },
  {
   "property": "C71",
   "status": "partial",
   "theorems": [
    "Nx.c71_few",
    "Nx.c71_result",
    "Nx.c71_best",
    "Nx.c71_hyps",
    "Nx.c71_uninit",
    "Nx.c71_zero",
    "Nx.c71_safe_partial",
    "Nx.c71_out_of_bounds",
    "Nx.c71_recover_partial",
    "Nx.c71_hyp_exact",
    "Nx.c71_recover_first",
    "Nx.c71_unchecked",
    "Nx.c71_norm",
    "Nx.c71_norm_few",
    "Nx.c71_norm_recover_partial",
    "Nx.c71_implausible"
   ],
   "note": "Exact arithmetic; the decomposition and the sort are parameters. What holds after a return is proved. The recovery needs a hypothesis with all inliers (c71_recover_partial), which a good first selection gives (c71_recover_first). That the function returns is false in general: without an inlier it uses an uninitialised array (c71_uninit, c71_zero), and some random numbers make it read behind the list (c71_out_of_bounds); c71_safe_partial proves that there is no other undefined behaviour. An implausible hypothesis can displace a plausible one (c71_implausible)."
  },
  {
   "property": "C72",
   "status": "partial",
   "theorems": [
    "Nx.c72_few",
    "Nx.c72_result",
    "Nx.c72_best",
    "Nx.c72_hyps",
    "Nx.c72_uninit",
    "Nx.c72_zero",
    "Nx.c72_safe_partial",
    "Nx.c72_recover_partial",
    "Nx.c72_recover_first",
    "Nx.c72_out_of_bounds",
    "Nx.c72_tolerance",
    "Nx.c72_norm",
    "Nx.c72_norm_few",
    "Nx.c72_norm_recover_partial"
   ],
   "note": "As C71, with the eight point estimate: c72_recover_partial, c72_recover_first, c72_uninit, c72_zero, c72_out_of_bounds, c72_safe_partial. With one to seven matches the variant with normalisation returns zero but changes the matrix (c72_norm_few)."
  },
  {
   "property": "C73",
   "status": "partial",
   "theorems": [
    "Nx.c73_krt",
    "Nx.c73_krt_scale",
    "Nx.c73_project_h",
    "Nx.c73_project",
    "Nx.c73_project_zero",
    "Nx.c73_epipolar",
    "Nx.c73_fundamental",
    "Nx.c73_triangulate_partial",
    "Nx.c73_triangulate_overflow",
    "Nx.c73_triangulate_fatal",
    "Nx.c73_triangulate_minimal",
    "Nx.c73_triangulate_exact",
    "Nx.c73_round_trip"
   ],
   "note": "Exact arithmetic; the decomposition is a parameter with a satisfiable contract. False as stated: with more marked matches than room the function writes behind the arrays, n_pt does not prevent it (c73_triangulate_overflow, c73_triangulate_fatal); with enough room everything is proved (c73_triangulate_partial, c73_triangulate_minimal, c73_triangulate_exact, c73_round_trip). The projection matrix is wrong if the last intrinsic parameter is not one (c73_krt_scale)."
  },
  {
   "property": "C74",
   "status": "partial",
   "theorems": [
    "Nx.c74_samples",
    "Nx.c74_nothing",
    "Nx.c74_overflow",
    "Nx.c74_nan_iff",
    "Nx.c74_nan",
    "Nx.c74_pair",
    "Nx.c74_bounded",
    "Nx.c74_normal",
    "Nx.c74_reject",
    "Nx.c74_free_own",
    "Nx.c74_free_given",
    "Nx.c74_free_shared"
   ],
   "note": "Exact real arithmetic in place of float and double. False as stated: two equal uniform numbers one half give the centre of the disc and a sample that is not a number (c74_nan); this is the only such point (c74_nan_iff). The smallest int overflows (c74_overflow). A uniform sampler that is given is freed by the Gaussian one (c74_free_given, c74_free_shared). What is written and which numbers are used is proved for every stream (c74_samples), the samples of a uniformly distributed point are independent normal variates (c74_normal, c74_reject); the distribution of the output of the generator itself is not modelled."
  },
  {
   "property": "C75",
   "status": "partial",
   "theorems": [
    "Nx.c75_deriv_x",
    "Nx.c75_deriv_x_narrow",
    "Nx.c75_deriv_y",
    "Nx.c75_deriv_y_partial",
    "Nx.c75_deriv_y_padded",
    "Nx.c75_deriv_y_low",
    "Nx.c75_slope"
   ],
   "note": "Exact arithmetic. False as stated: the vertical derivative uses the stride of the destination to read the last two rows of the source, so the last row is wrong for images with padding (c75_deriv_y_padded; all other rows c75_deriv_y_partial); images one pixel wide or high are read outside of their memory (c75_deriv_x_narrow, c75_deriv_y_low). Proved otherwise: c75_deriv_x, c75_deriv_y, c75_slope."
  },
  {
   "property": "C76",
   "status": "partial",
   "theorems": [
    "Nx.c76_subtract",
    "Nx.c76_axpy",
    "Nx.c76_axpy_uc",
    "Nx.c76_normalize_partial",
    "Nx.c76_normalize_decreasing",
    "Nx.c76_normalize_wrong",
    "Nx.c76_normalize_symmetric_partial",
    "Nx.c76_normalize_single"
   ],
   "note": "Exact arithmetic. False as stated: a sample that is a new minimum is not tested for the maximum, so an image whose greatest sample is only the first one is normalised wrongly, one with decreasing samples becomes black (c76_normalize_decreasing, c76_normalize_wrong, c76_normalize_single); c76_normalize_partial and c76_normalize_symmetric_partial hold if the greatest sample occurs after the first. c76_subtract, c76_axpy and c76_axpy_uc are complete, the last for results in the range of int."
  },
  {
   "property": "C77",
   "status": "proved",
   "theorems": [
    "Nx.c77_rectangle",
    "Nx.c77_box_x",
    "Nx.c77_box_y",
    "Nx.c77_box_narrow",
    "Nx.c77_box_radius",
    "Nx.c77_box",
    "Nx.c77_smooth",
    "Nx.c77_smooth_range",
    "Nx.c77_box_uc",
    "Nx.c77_smooth_uc",
    "Nx.c77_box_darker"
   ],
   "note": "Exact arithmetic; the values of the Gaussian function are a parameter; images with at least two pixels in both directions and a radius of at least one, as otherwise the program stops (c77_box_narrow, c77_box_radius). For 8-bit samples the means are truncated in both passes: the result is less than two darker than the mean (c77_box_uc, c77_smooth_uc), and more than one is possible (c77_box_darker)."
  },
  {
   "property": "C78",
   "status": "partial",
   "theorems": [
    "Nx.c78_at_pixel",
    "Nx.c78_inside",
    "Nx.c78_pixel",
    "Nx.c78_background",
    "Nx.c78_edge",
    "Nx.c78_repeat_partial",
    "Nx.c78_repeat_edge",
    "Nx.c78_mirror_partial",
    "Nx.c78_mirror_negative",
    "Nx.c78_mirror_far",
    "Nx.c78_mirror_thin",
    "Nx.c78_safe",
    "Nx.c78_warp",
    "Nx.c78_identity",
    "Nx.c78_rotate_centre",
    "Nx.c78_rotate_rigid",
    "Nx.c78_rotate",
    "Nx.c78_rotate_f32_dark"
   ],
   "note": "Exact arithmetic; positions in the range of int. True inside (c78_inside, c78_pixel), for the background (c78_background), for repeated edges except less than one pixel outside of the first row or column (c78_repeat_partial), for mirrored images from 0 to below 2 w - 3 (c78_mirror_partial), and no read out of bounds except when mirroring (c78_safe). What is missing is false: positions from -1 to 0 are extrapolated (c78_edge, c78_repeat_edge); mirrored positions are extrapolated when negative (c78_mirror_negative), read out of bounds from 2 w - 3 (c78_mirror_far) and divide by zero for images one pixel wide (c78_mirror_thin); the last row and column become background even for the identity (c78_identity); rotated float images are truncated to integers, so that images between 0 and 1 become black (c78_rotate_f32_dark)."
  },
  {
   "property": "C79",
   "status": "partial",
   "theorems": [
    "Nx.c79_scale_inside",
    "Nx.c79_scale_down",
    "Nx.c79_scale_f32",
    "Nx.c79_scale_uc",
    "Nx.c79_scale_outside",
    "Nx.c79_scale_exact",
    "Nx.c79_scale_up"
   ],
   "note": "Exact arithmetic. The claim holds exactly when the last position lies before the last sample in both directions, \u230an\u00b7s\u230b \u2212 1 < (n \u2212 1)\u00b7s (c79_scale_inside for all strides and both types; c79_scale_exact: otherwise the call is undefined for images without gaps; c79_scale_outside for the rows with any stride). It holds for all scales less than one (c79_scale_down, c79_scale_f32, c79_scale_uc, rounded down for 8-bit samples), never for scale one or scales of two or more (c79_scale_up), and depends on the size in between. What is missing is that the claim is false there."
  },
  {
   "property": "C80",
   "status": "proved",
   "theorems": [
    "Nx.c80_call_effect",
    "Nx.c80_pixels_inside",
    "Nx.c80_pixels_apart",
    "Nx.c80_no_leak",
    "Nx.c80_self_copy",
    "Nx.c80_restride",
    "Nx.c80_wrap_narrow"
   ],
   "note": "For calls that follow the rules of ImAllowed. Without them it is false: copying an image onto itself is undefined (c80_self_copy), wrapping accepts colour images with rows shorter than their pixels, which then lie outside (c80_wrap_narrow). Resizing to rows of another length does not keep the pixels (c80_restride)."
  },
  {
   "property": "C81",
   "status": "partial",
   "theorems": [
    "Nx.c81_fast_partial",
    "Nx.c81_fine_partial",
    "Nx.c81_scaled_partial",
    "Nx.c81_padded",
    "Nx.c81_padded_wrong",
    "Nx.c81_fast_small",
    "Nx.c81_scaled_one",
    "Nx.c81_fine_labels",
    "Nx.c81_scaled_labels",
    "Nx.c81_fast_labels"
   ],
   "note": "For 8-bit images, with exact scales and sigmas. It is false for images with gaps between rows, whose rows are misread (c81_padded, c81_padded_wrong), for fast pyramids with too many levels (c81_fast_small) and for scaled pyramids with factor one (c81_scaled_one), both out of bounds, and the sigmas of fast pyramids are wrong but for one initial value (c81_fast_labels). For the other kinds they are right (c81_fine_labels, c81_scaled_labels)."
  },
  {
   "property": "C82",
   "status": "partial",
   "theorems": [
    "Nx.c82_detect",
    "Nx.c82_detect_none",
    "Nx.c82_separated",
    "Nx.c82_corners_unique",
    "Nx.c82_window",
    "Nx.c82_images",
    "Nx.c82_score",
    "Nx.c82_det",
    "Nx.c82_no_window",
    "Nx.c82_large_k",
    "Nx.c82_straight",
    "Nx.c82_adapt_pos",
    "Nx.c82_adapt_up",
    "Nx.c82_adapt_down",
    "Nx.c82_adapt_keep",
    "Nx.c82_adapt_mono",
    "Nx.c82_vg_detect_partial",
    "Nx.c82_vg_detect_zero",
    "Nx.c82_vg_detect_pyr_partial",
    "Nx.c82_narrow",
    "Nx.c82_padded"
   ],
   "note": "With exact numbers. It is false for images with gaps between rows (c82_padded, a defect of the vertical derivative), and images of one column are read out of bounds (c82_narrow)."
  },
  {
   "property": "C83",
   "status": "proved",
   "theorems": [
    "Nx.c83_ratio",
    "Nx.c83_plain",
    "Nx.c83_plain_empty",
    "Nx.c83_ratio_empty",
    "Nx.c83_large_threshold",
    "Nx.c83_unique",
    "Nx.c83_monotone",
    "Nx.c83_ambiguous",
    "Nx.c83_identical"
   ],
   "note": "For every monotone rounding that keeps integers of 24 bits. Without candidates and without a check of the ratio the code reads in front of an array (c83_plain_empty); thresholds from 1 on disable the check (c83_large_threshold)."
  },
  {
   "property": "C84",
   "status": "partial",
   "theorems": [
    "Nx.c84_read_back",
    "Nx.c84_miss",
    "Nx.c84_hit",
    "Nx.c84_history_partial",
    "Nx.c84_again",
    "Nx.c84_other_size",
    "Nx.c84_blocks",
    "Nx.c84_float",
    "Nx.c84_match_hit",
    "Nx.c84_match_again",
    "Nx.c84_match_overflow",
    "Nx.c84_save_load",
    "Nx.c84_load_truncated",
    "Nx.c84_load_invalid"
   ],
   "note": "The digest forgets the size of the image, so that another image may get its keypoints (c84_other_size), and the border between the two sets of keypoints, so that an array is overrun (c84_match_overflow); float images (c84_float) and messages of whole blocks (c84_blocks) are undefined behaviour."
  },
  {
   "property": "C85",
   "status": "partial",
   "theorems": [
    "Nx.c85_sample_partial",
    "Nx.c85_zero_direction",
    "Nx.c85_mass",
    "Nx.c85_histogram_partial",
    "Nx.c85_direction",
    "Nx.c85_frame",
    "Nx.c85_window",
    "Nx.c85_contrast",
    "Nx.c85_bytes",
    "Nx.c85_descriptor_partial"
   ],
   "note": "Exact arithmetic; the functions of math.h are parameters with the properties that are used, which hold for the real functions (realMath_sqrt, realMath_angle). A sample exactly in the direction of the keypoint in the first cell accesses the element in front of the array (c85_zero_direction), so these are excluded. The offset of the keypoint within its pixel is not rotated (c85_frame)."
  },
  {
   "property": "C86",
   "status": "partial",
   "theorems": [
    "Nx.c86_smooth",
    "Nx.c86_mass",
    "Nx.c86_bounds",
    "Nx.c86_peak",
    "Nx.c86_histogram",
    "Nx.c86_directions",
    "Nx.c86_interpolation",
    "Nx.c86_apart",
    "Nx.c86_peak_reported_partial",
    "Nx.c86_flat",
    "Nx.c86_all",
    "Nx.c86_window",
    "Nx.c86_lost"
   ],
   "note": "Exact arithmetic, functions of math.h as parameters. The element in front of the bins is the last bin before the last mean, so the first bin is compared with a wrong neighbour: there are histograms with one clear peak for which no keypoint is created (c86_lost), and c86_peak_reported_partial excludes the first bin."
  },
  {
   "property": "C87",
   "status": "partial",
   "theorems": [
    "Nx.c87_candidates_partial",
    "Nx.c87_inside",
    "Nx.c87_wrapped",
    "Nx.c87_edge",
    "Nx.c87_small_border"
   ],
   "note": "Exact arithmetic. The loop over columns ends at width + border instead of width - border: the right border is searched, and candidates in the left border are reported outside of the image in the row above (c87_wrapped); the exact statement with this range is c87_candidates_partial, the columns that should be searched are c87_inside. With a border of one pixel memory behind the image is read (c87_small_border)."
  },
  {
   "property": "C88",
   "status": "partial",
   "theorems": [
    "Nx.c88_interp_partial",
    "Nx.c88_start",
    "Nx.c88_exact",
    "Nx.c88_fifth"
   ],
   "note": "Exact arithmetic; the solver is a parameter with the contract that it solves the symmetric system of the lower triangle. If all five tries move, the offset of the previous pixel is added to the last one and the result is one pixel off (c88_fifth)."
  },
  {
   "property": "C89",
   "status": "partial",
   "theorems": [
    "Nx.c89_append",
    "Nx.c89_small",
    "Nx.c89_key",
    "Nx.c89_keys",
    "Nx.c89_compute",
    "Nx.c89_compute_partial",
    "Nx.c89_overflow",
    "Nx.c89_octaves"
   ],
   "note": "For stores with room for at least two keypoints and below 8388608 keypoints. With room for no or one keypoint the store never grows and the next keypoint ends the program (c89_small); from ten million keypoints on the size overflows (c89_overflow). The descriptors need that no sample has exactly the direction of the keypoint (c89_compute_partial, see C85)."
  },
  {
   "property": "C90",
   "status": "proved",
   "theorems": [
    "Nx.c90_lists",
    "Nx.c90_effect",
    "Nx.c90_room",
    "Nx.c90_stable",
    "Nx.c90_growth"
   ],
   "note": "On the model of memory blocks of C15. Products of counts and item sizes are natural numbers (no overflow of size_t)."
  },
  {
   "property": "C91",
   "status": "proved",
   "theorems": [
    "Nx.c91_read",
    "Nx.c91_write",
    "Nx.c91_roundtrip",
    "Nx.c91_blank"
   ],
   "note": "printf with %.17g and strtod are parameters with the contract that they are inverse to each other on the elements of the matrix. Text behind the last number of a line is ignored, and an empty line at the end ends the program (c91_blank)."
  },
  {
   "property": "C92",
   "status": "partial",
   "theorems": [
    "Nx.c92_forward",
    "Nx.c92_inverse",
    "Nx.c92_contains",
    "Nx.c92_sampling",
    "Nx.c92_stage",
    "Nx.c92_fixed",
    "Nx.c92_noise",
    "Nx.c92_repeat",
    "Nx.c92_fill",
    "Nx.c92_repeat_jump",
    "Nx.c92_general_step",
    "Nx.c92_never"
   ],
   "note": "The transformations, sizes, sampling and the background are proved (c92_forward, c92_inverse, c92_contains, c92_sampling, c92_stage, c92_fixed, c92_noise, c92_repeat, c92_fill). The last claim is false: c92_never proves that no call returns an image, because the first buffer is smoothed in y with a Gaussian of width 0, which violates the assertion of nx_kernel_sym_gaussian (without assertions the kernel is 0/0). c92_repeat_jump: repetition overwrites pixels of the image by its border. The formula for the inverse of a general step is wrong, but no such step is used (c92_general_step). The variant with SSE is not modelled."
  },
  {
   "property": "C93",
   "status": "proved",
   "theorems": [
    "Nx.c93_add",
    "Nx.c93_history",
    "Nx.c93_entry",
    "Nx.c93_nearest",
    "Nx.c93_by_id",
    "Nx.c93_empty",
    "Nx.c93_overflow"
   ],
   "note": "Sizes are non-negative; memory does not run out. Two findings are proved as well: the empty map (c93_empty) and the overflow of the offset (c93_overflow)."
  },
  {
   "property": "C94",
   "status": "partial",
   "theorems": [
    "Nx.c94_to_rgba",
    "Nx.c94_to_gray",
    "Nx.c94_rgba_fatal",
    "Nx.c94_gray_range",
    "Nx.c94_gray_value",
    "Nx.c94_to_float",
    "Nx.c94_to_bytes_black",
    "Nx.c94_round_trip_black",
    "Nx.c94_colormap",
    "Nx.c94_colormap_gray",
    "Nx.c94_ends",
    "Nx.c94_outside",
    "Nx.c94_apply",
    "Nx.c94_apply_total"
   ],
   "note": "Proved: c94_to_rgba, c94_to_gray (behind the assertion), c94_gray_range, c94_gray_value, c94_to_float, c94_colormap, c94_colormap_gray, c94_ends, c94_apply, c94_apply_total. False for the code, with proofs: nx_image_convert_type asserts a grayscale image, so RGBA is never converted (c94_rgba_fatal); nx_image_convert_f32_to_uc has its two bounds interchanged and always gives a black image (c94_to_bytes_black, c94_round_trip_black); a value of 2 reads behind each table (c94_outside). Conversion between types for images without pixels is left out."
  },
  {
   "property": "C95",
   "status": "proved",
   "theorems": [
    "Nx.c95_table",
    "Nx.c95_detect",
    "Nx.c95_pyr",
    "Nx.c95_keys_pyr",
    "Nx.c95_unique",
    "Nx.c95_rotate",
    "Nx.c95_symmetric",
    "Nx.c95_illumination"
   ],
   "note": "atan2 is a parameter; scores are the integers that fast_9.c computes. Composes C42, C43 and C44."
  },
  {
   "property": "C96",
   "status": "proved",
   "theorems": [
    "Nx.c96_load",
    "Nx.c96_mismatch",
    "Nx.c96_no_poses",
    "Nx.c96_absent",
    "Nx.c96_free",
    "Nx.c96_layout",
    "Nx.c96_calib_line",
    "Nx.c96_frame",
    "Nx.c96_paths",
    "Nx.c96_dataset"
   ],
   "note": "fscanf of %lf is a parameter that consumes text; c96_layout assumes that a written number can be read back, shown for an instance. The null stream is a finding (c96_no_poses)."
  },
  {
   "property": "C97",
   "status": "partial",
   "theorems": [
    "Nx.c97_few",
    "Nx.c97_ends",
    "Nx.c97_undefined",
    "Nx.c97_result_partial",
    "Nx.c97_best_partial",
    "Nx.c97_hyps_partial",
    "Nx.c97_safe_partial",
    "Nx.c97_recover_partial",
    "Nx.c97_out_of_bounds"
   ],
   "note": "False as stated: every call with four or more matches converts -DBL_MAX to int at the first test for termination (c97_undefined), and the largest 128 random numbers read a match behind the last (c97_out_of_bounds). The other parts are proved for any value of the conversion (below 200 for recovery). Real numbers instead of doubles; SVD and qsort are parameters with contracts."
  },
  {
   "property": "C98",
   "status": "proved",
   "theorems": [
    "Nx.c98_attributes",
    "Nx.c98_buffer",
    "Nx.c98_attributes_line",
    "Nx.c98_load",
    "Nx.c98_valid",
    "Nx.c98_free",
    "Nx.c98_fatal",
    "Nx.c98_overflow",
    "Nx.c98_frame",
    "Nx.c98_paths",
    "Nx.c98_print_range",
    "Nx.c98_print",
    "Nx.c98_names"
   ],
   "note": "fscanf of %f is a parameter. Findings: names are compared by prefix, so others are accepted (c98_names); attributes after the first in one line can be lost (c98_attributes_line); overflow of the number of frames (c98_overflow)."
  },
  {
   "property": "C99",
   "status": "proved",
   "theorems": [
    "Nx.c99_radon",
    "Nx.c99_radon_big",
    "Nx.c99_back",
    "Nx.c99_cover",
    "Nx.c99_score",
    "Nx.c99_score_range",
    "Nx.c99_score_flat"
   ],
   "note": "Arithmetic exact; values used for the roots are parameters. Positions less than one pixel outside the left or upper border are not described (C78 does). Finding: the square of the rotation overflows an int for images that themselves fit (c99_radon_big)."
  },
  {
   "property": "C100",
   "status": "proved",
   "theorems": [
    "Nx.c100_name",
    "Nx.c100_header",
    "Nx.c100_content",
    "Nx.c100_others",
    "Nx.c100_gray",
    "Nx.c100_color",
    "Nx.c100_codec",
    "Nx.c100_refused"
   ],
   "note": "8-bit images; the functions for JPEG and PNG are parameters. Files starting with P4 are recognised as binary PNM but never loaded (c100_refused)."
  },
  {
   "property": "C101",
   "status": "proved",
   "theorems": [
    "Nx.c101_load",
    "Nx.c101_needs",
    "Nx.c101_fatal",
    "Nx.c101_free",
    "Nx.c101_frame",
    "Nx.c101_names",
    "Nx.c101_paths"
   ],
   "note": "fscanf of %lf is a parameter; index assertion enabled. Finding: names are compared by prefix, so others are accepted (c101_names)."
  },
  {
   "property": "C102",
   "status": "proved",
   "theorems": [
    "Nx.c102_paths",
    "Nx.c102_unconnected",
    "Nx.c102_network",
    "Nx.c102_init",
    "Nx.c102_init_unconnected"
   ],
   "note": "Keypoints, matches and the estimator are given; matrices are exact, lengths of paths are rounded. Findings: an image without connection is undefined behaviour (c102_unconnected, c102_init_unconnected); the array visited is never freed (not modelled)."
  },
  {
   "property": "C103",
   "status": "proved",
   "theorems": [
    "Nx.c103_box",
    "Nx.c103_composite",
    "Nx.c103_singular",
    "Nx.c103_cut",
    "Nx.c103_outside"
   ],
   "note": "Positions are exact rationals. Findings: conversion to int truncates towards zero, so corners can be cut off (c103_cut) and an image is shown up to a pixel outside of itself (c103_outside); singular matrices are undefined (c103_singular)."
  },
  {
   "property": "C104",
   "status": "proved",
   "theorems": [
    "Nx.c104_extract",
    "Nx.c104_frames",
    "Nx.c104_none_right",
    "Nx.c104_search",
    "Nx.c104_guided"
   ],
   "note": "The extractor (C45) and the square root are parameters, double arithmetic is exact. Findings: search_nn on an empty map is undefined when the right view has no descriptors (c104_none_right); the guided matches are appended to the putative ones, which are not cleared, so that pairs appear twice (c104_guided)."
  },
  {
   "property": "C105",
   "status": "partial",
   "theorems": [
    "Nx.c105_mean",
    "Nx.c105_jacobian",
    "Nx.c105_normal_partial",
    "Nx.c105_normal_false",
    "Nx.c105_step",
    "Nx.c105_scale",
    "Nx.c105_refine",
    "Nx.c105_solved",
    "Nx.c105_no_mean"
   ],
   "note": "Exact arithmetic, LAPACK as a parameter. Missing because false: the elements of the matrix are single products with one factor from a wrong place (c105_normal_partial says what they are, c105_normal_false gives a witness that is not even symmetric); nx_dsym_solver returns true for success but the caller takes a nonzero value as failure, so that a solved system ends the program (c105_solved) and steps come from unsolved systems only (c105_step)."
  },
  {
   "property": "C106",
   "status": "proved",
   "theorems": [
    "Nx.c106_new",
    "Nx.c106_prepare",
    "Nx.c106_octaves",
    "Nx.c106_widths",
    "Nx.c106_compute"
   ],
   "note": "Exact arithmetic; the Gaussian and the square root are parameters, and so is the search of one scale (C87 to C89). Images of floating point numbers; 8-bit images are converted first (C94). Finding: the gradients for scale i are those of level i-1, although the keypoints have about the width of level i."
  },
  {
   "property": "C107",
   "status": "proved",
   "theorems": [
    "Nx.c107_join",
    "Nx.c107_text",
    "Nx.c107_complete",
    "Nx.c107_cut",
    "Nx.c107_column",
    "Nx.c107_values",
    "Nx.c107_aligned",
    "Nx.c107_usage"
   ],
   "note": "Output as the sequence of bytes; %f is a parameter; lengths are natural numbers. Strings of 1022 bytes and more are cut (c107_cut)."
  },
  {
   "property": "C108",
   "status": "partial",
   "theorems": [
    "Nx.c108_step",
    "Nx.c108_values_partial",
    "Nx.c108_complete",
    "Nx.c108_round_trip",
    "Nx.c108_sorted",
    "Nx.c108_twice",
    "Nx.c108_add",
    "Nx.c108_twice_lost",
    "Nx.c108_copy",
    "Nx.c108_values_false"
   ],
   "note": "False for programs that copy an object: the implicit copy constructor copies the shared_ptr, so normalising the original changes how the copy is denormalised (c108_copy, c108_values_false). Proved for programs without copies (c108_values_partial, c108_complete) and for every single step that writes statistics nobody shares, copies included (c108_step). Normalising twice loses the original coordinates (c108_twice, c108_twice_lost). add_match returns the number of matches, not an index (c108_add). Exact arithmetic; a division by zero ends the run; std::sort is a parameter with its contract."
  },
  {
   "property": "C109",
   "status": "partial",
   "theorems": [
    "Nx.c109_calloc_partial",
    "Nx.c109_calloc_short",
    "Nx.c109_calloc_false",
    "Nx.c109_new",
    "Nx.c109_new_negative",
    "Nx.c109_push",
    "Nx.c109_pushes_partial",
    "Nx.c109_pushes_overflow"
   ],
   "note": "nx_calloc does not check the product: if it does not fit, every block that comes back is too short (c109_calloc_short, c109_calloc_false). Adding is proved up to 715827875 elements (c109_pushes_partial); the computation of the capacity overflows int for larger arrays, always before 1073741824 elements (c109_pushes_overflow)."
  },
  {
   "property": "C110",
   "status": "proved",
   "theorems": [
    "Nx.c110_step",
    "Nx.c110_free",
    "Nx.c110_life"
   ],
   "note": "Memory without contents: decisions that depend on contents are parameters and the theorems hold for all of them. Programs that end by a fatal error are not covered (the system frees their memory). Strings of the caller are assumed not to be the strings of the options themselves."
  },
  {
   "property": "C111",
   "status": "partial",
   "theorems": [
    "Nx.c111_free",
    "Nx.c111_step_partial",
    "Nx.c111_refused",
    "Nx.c111_life_partial",
    "Nx.c111_self_false"
   ],
   "note": "False as stated: nx_data_frame_set_string frees the element before it copies the new one, so setting an element to the string got from the same element uses freed memory, for every frame (c111_self_false). The other theorems exclude exactly that: c111_step_partial and c111_life_partial. Refused calls are fatal (c111_refused). Memory without contents: which level a factor has is a parameter."
  },
  {
   "property": "C112",
   "status": "proved",
   "theorems": [
    "Nx.c112_parse",
    "Nx.c112_load",
    "Nx.c112_life"
   ],
   "note": "Memory without contents; the lexer is the list of the tokens that it gives, errors of the lexer are not modelled. strings_as_factors is covered by c111_step_partial."
  },
  {
   "property": "C113",
   "status": "partial",
   "theorems": [
    "Nx.c113_png_partial",
    "Nx.c113_png_rgb_false",
    "Nx.c113_png_overflow_false",
    "Nx.c113_png_header",
    "Nx.c113_png_leak_false",
    "Nx.c113_png_save",
    "Nx.c113_png_round",
    "Nx.c113_jpeg_partial",
    "Nx.c113_jpeg_overflow_false",
    "Nx.c113_jpeg_refused",
    "Nx.c113_jpeg_leak_false",
    "Nx.c113_jpeg_save"
   ],
   "note": "False as stated in four ways, each with a theorem for all such files: colour without alpha in mode RGBA is stored with three samples for each pixel (c113_png_rgb_false); gray with transparency as it is, and JPEG files of four or more components as they are, overrun the image or the row buffer (c113_png_overflow_false, c113_jpeg_overflow_false); damaged files leak the row pointers or the row buffer (c113_png_leak_false, c113_jpeg_leak_false). All other combinations are proved (c113_png_partial, c113_jpeg_partial). libpng and libjpeg are modelled by their documentation; see the header of Verif/Model/PngJpeg.lean."
  },
  {
   "property": "C114",
   "status": "partial",
   "theorems": [
    "Nx.c114_free",
    "Nx.c114_parse",
    "Nx.c114_string",
    "Nx.c114_stream_partial",
    "Nx.c114_stream_large_false",
    "Nx.c114_life",
    "Nx.c114_log_free",
    "Nx.c114_log",
    "Nx.c114_log_life"
   ],
   "note": "False for streams of 2^30 - 2 bytes or more, where the size of the text overflows (c114_stream_large_false); proved for shorter ones (c114_stream_partial) and for everything else."
  },
  {
   "property": "C115",
   "status": "partial",
   "theorems": [
    "Nx.c115_theta_partial",
    "Nx.c115_level_false",
    "Nx.c115_ext",
    "Nx.c115_quarter",
    "Nx.c115_zero"
   ],
   "note": "False for the levels near the top of the pyramid: nx_brief_extractor_compute_pyr_at_theta does not check that the sampling level exists and reads behind the array of levels for every such level, where nx_brief_extractor_check_point_pyr refuses the point (c115_level_false). Everything else is proved."
  },
  {
   "property": "C116",
   "status": "partial",
   "theorems": [
    "Nx.c116_fit_partial",
    "Nx.c116_few",
    "Nx.c116_bench_partial",
    "Nx.c116_validation_partial",
    "Nx.c116_homogeneous_false",
    "Nx.c116_ground_truth",
    "Nx.c116_leak"
   ],
   "note": "False as stated in three ways, each for all such inputs: with less than four matches an array is read that nothing has written (c116_few); the third homogeneous coordinates are ignored, so another point is loaded unless they are one (c116_homogeneous_false); the detector and the streams of the ground truth files are never freed, everything else is freed once (c116_leak). The fit and the benchmark are proved for four or more matches (c116_fit_partial, c116_bench_partial), with the undefined first test of C97 as in C97; the ground truth is proved completely."
  },
  {
   "property": "C117",
   "status": "partial",
   "theorems": [
    "Nx.c117_mark",
    "Nx.c117_edge",
    "Nx.c117_roi",
    "Nx.c117_keypoints",
    "Nx.c117_matches",
    "Nx.c117_curve_partial",
    "Nx.c117_curve_false",
    "Nx.c117_rel_curve_false",
    "Nx.c117_colour_partial",
    "Nx.c117_big_endian_false",
    "Nx.c117_canvas",
    "Nx.c117_match_image_false",
    "Nx.c117_match_image_fatal",
    "Nx.c117_match_image_partial",
    "Nx.c117_memory",
    "Nx.c117_set_image_false"
   ],
   "note": "Marks, edges, regions, keypoints, matches, the canvas and construction and destruction are proved for all inputs (c117_mark, c117_edge, c117_roi, c117_keypoints, c117_matches, c117_canvas, c117_memory). False as stated, with proofs: nx_gc_curve passes the end as first control point, so the curve ends at the second control point and need not contain its end (c117_curve_partial, c117_curve_false); nx_gc_rel_curve_to is not relative (c117_rel_curve_false); colours are right only where the low byte is stored first (c117_colour_partial, c117_big_endian_false); with assertions create_match_image never returns, since it converts an image that is RGBA already (c117_match_image_false, c117_match_image_fatal; without assertions c117_match_image_partial); set_image always frees the pixels before the surface that uses them (c117_set_image_false). Cairo is modelled by its manual; the pixels that a stroke covers are not modelled."
  },
  {
   "property": "C118",
   "status": "partial",
   "theorems": [
    "Nx.c118_title_partial",
    "Nx.c118_quote_false",
    "Nx.c118_labels_partial",
    "Nx.c118_xlabel_false",
    "Nx.c118_ylabel_false",
    "Nx.c118_terminal_partial",
    "Nx.c118_init",
    "Nx.c118_data_partial",
    "Nx.c118_na_false",
    "Nx.c118_newline_false",
    "Nx.c118_memory",
    "Nx.c118_no_pipe"
   ],
   "note": "Proved for all inputs: the first commands (c118_init), the terminals and title and labels together for texts without quotes, backslashes and newlines (c118_terminal_partial, c118_title_partial, c118_labels_partial), blocks of frames of numbers and truth values without missing cells (c118_data_partial), memory (c118_memory, c118_no_pipe). False as stated, with proofs: set_xlabel and set_ylabel send a command about the title (c118_xlabel_false, c118_ylabel_false); a quote in a text ends it and the rest becomes commands (c118_quote_false); missing cells vanish, so different rows give the same fields (c118_na_false); a string cell with a newline can end the block early (c118_newline_false). gnuplot is modelled only by how it splits its input into commands, words, texts, blocks and fields."
  },
  {
   "property": "C119",
   "status": "partial",
   "theorems": [
    "Nx.c119_messages",
    "Nx.c119_silent_false",
    "Nx.c119_newline_false",
    "Nx.c119_fatal_partial",
    "Nx.c119_fatal_return_false",
    "Nx.c119_stack_false"
   ],
   "note": "Proved for all sequences of calls with texts without newlines and escapes and tags without closing brackets (c119_messages), and for fatal errors with a handler that leaves (c119_fatal_partial). False as stated, with proofs: NX_LOG_SILENT is 3, the level of errors, so errors are written (c119_silent_false); a text with a newline reads as two messages (c119_newline_false); behind a handler that returns the behaviour is undefined (c119_fatal_return_false); the names of the frames are used even if there was no memory for them (c119_stack_false). Threads are not modelled."
  },
  {
   "property": "C120",
   "status": "partial",
   "theorems": [
    "Nx.c120_check_dir",
    "Nx.c120_check_file_false",
    "Nx.c120_check_file_partial",
    "Nx.c120_ensure",
    "Nx.c120_processes",
    "Nx.c120_race_false",
    "Nx.c120_serial_partial",
    "Nx.c120_scan",
    "Nx.c120_scan_fatal"
   ],
   "note": "Proved: c120_check_dir, c120_scan, c120_scan_fatal, nx_ensure_dir alone (c120_ensure), and for any number of processes and any schedule that other paths do not change, that a process returns only if the directory is there and that one dies only if another has made it (c120_processes). False as stated, with proofs: nx_check_file says yes for directories (c120_check_file_false, c120_check_file_partial); two processes that ensure the same directory can make one of them die, because mkdir is not allowed to find it (c120_race_false; without interleaving c120_serial_partial). File systems without links; fopen on a directory as on Linux."
  },
  {
   "property": "C121",
   "status": "partial",
   "theorems": [
    "Nx.c121_save",
    "Nx.c121_kept_partial",
    "Nx.c121_kept_false",
    "Nx.c121_xsave",
    "Nx.c121_load_csv",
    "Nx.c121_xload_csv",
    "Nx.c121_load_image",
    "Nx.c121_xload_image",
    "Nx.c121_ground_truth_false",
    "Nx.c121_tmpfile"
   ],
   "note": "Proved: c121_save (streams, beginnings, room), c121_xsave, c121_load_csv, c121_xload_csv, c121_load_image, c121_xload_image, c121_tmpfile. False as stated, with proofs: nx_fclose and nx_xfclose read the error indicator before fclose flushes and ignore what fclose returns, so everything that fits into the buffer but not onto the disk is reported as saved (c121_kept_false; true when the last write was flushed, c121_kept_partial); the tool that fits homographies never closes the file of the ground truth (c121_ground_truth_false). What the encoders write is a list of pieces, what the decoders and parsers do is a parameter."
  },
  {
   "property": "C122",
   "status": "partial",
   "theorems": [
    "Nx.c122_accuracy",
    "Nx.c122_range",
    "Nx.c122_strictMono",
    "Nx.c122_limits",
    "Nx.c122_odd_partial",
    "Nx.c122_odd_false"
   ],
   "note": "Proved, with real arithmetic: the error bound 1.5e-7 for all arguments (c122_accuracy), c122_strictMono, c122_range, c122_limits, and oddness away from 0 (c122_odd_partial). False as stated, with proof: nx_erf(0) is 1e-9, so it is not odd at 0 and jumps there (c122_odd_false). Rounding of double and the accuracy of exp are not modelled."
  },
  {
   "property": "C123",
   "status": "partial",
   "theorems": [
    "Nx.c123_pyramid",
    "Nx.c123_pyramid_fatal",
    "Nx.c123_sift",
    "Nx.c123_sift_negative",
    "Nx.c123_warp",
    "Nx.c123_fast",
    "Nx.c123_brief",
    "Nx.c123_brief_large"
   ],
   "note": "Proved for every sequence of allowed operations (c123_pyramid, c123_sift, c123_warp, c123_fast, c123_brief). False as stated, with proof: a SIFT detector for -3 scales writes before an array (c123_sift_negative), and 2^26 octets overflow an int (c123_brief_large). Contents of the blocks are not modelled."
  },
  {
   "property": "C124",
   "status": "proved",
   "theorems": [
    "Nx.c124_list",
    "Nx.c124_fatal",
    "Nx.c124_matrix"
   ],
   "note": "Weights and names are in C-claims about graphs; here only the blocks and which vertex a node is for."
  },
  {
   "property": "C125",
   "status": "partial",
   "theorems": [
    "Nx.c125_panorama_partial",
    "Nx.c125_leak",
    "Nx.c125_few"
   ],
   "note": "Proved: no access to a block that is not allocated, no double free, the blocks of the rest are untouched, and exactly 2n\u00b2+1 blocks are lost in each run of n images (c125_panorama_partial). False as stated, with proof: after a run blocks stay allocated that nothing points to, because the functions with a cache do not free msgs and lmsg and visited is not freed (c125_leak). The contents and the paths through the graph of images are modelled elsewhere."
  },
  {
   "property": "C126",
   "status": "proved",
   "theorems": [
    "Nx.c126_usvt",
    "Nx.c126_us",
    "Nx.c126_svt",
    "Nx.c126_only_s",
    "Nx.c126_values",
    "Nx.c126_fatal",
    "Nx.c126_unreported",
    "Nx.c126_nine",
    "Nx.c126_four",
    "Nx.c126_three"
   ],
   "note": "A defect is part of the claim: the status of the second call is never looked at, so a decomposition that fails returns silently (c126_unreported). That dgesvd works as documented is a hypothesis, shown to be satisfiable by constructing a decomposition of every matrix; numbers are real numbers."
  },
  {
   "property": "C127",
   "status": "proved",
   "theorems": [
    "Nx.c127_initial",
    "Nx.c127_initial_c71",
    "Nx.c127_guided",
    "Nx.c127_guided_exact",
    "Nx.c127_few",
    "Nx.c127_program"
   ],
   "note": "A defect is part of the claim: with a solver that solves the systems, every run with 15 or more inliers ends with an error (last part of c127_program, from C105). Exact real arithmetic; the first estimation may be undefined behaviour as in C71, nothing after it is. The matches for a known homography are a parameter (C104)."
  },
  {
   "property": "C128",
   "status": "partial",
   "theorems": [
    "Nx.c128_pair",
    "Nx.c128_report",
    "Nx.c128_ends_partial",
    "Nx.c128_no_check"
   ],
   "note": "c128_report holds for every run that ends. That the benchmark ends is proved for thresholds between 0 and 1 (c128_ends_partial) and false otherwise: a frame without keypoints is undefined behaviour then (c128_no_check). The detector is a parameter without memory of its own; times and the format of the lines are left out."
  },
  {
   "property": "C129",
   "status": "partial",
   "theorems": [
    "Nx.c129_call",
    "Nx.c129_program",
    "Nx.c129_copy_of_shared",
    "Nx.c129_two_owners",
    "Nx.c129_view"
   ],
   "note": "Proved for programs that follow the rules of VgAllowed (c129_call, c129_program). False without them: copy_of between two variables that share an image copies memory onto itself (c129_copy_of_shared), an image wrapped as owned twice is freed twice (c129_two_owners), and a handle of a level of a pyramid does not keep the level (c129_view). Image processing, loading and saving by handles are left out."
  },
  {
   "property": "C130",
   "status": "proved",
   "theorems": [
    "Nx.c130_seed_unique",
    "Nx.c130_seed_exists",
    "Nx.c130_call",
    "Nx.c130_program",
    "Nx.c130_seeded",
    "Nx.c130_same_second"
   ],
   "note": "Two samplers seeded from the time in the same second therefore give the same numbers (c130_same_second). The assertions of SFMT are taken to be compiled in, and n of the fill functions not negative."
  },
  {
   "property": "C131",
   "status": "partial",
   "theorems": [
    "Nx.c131_declared",
    "Nx.c131_params_partial",
    "Nx.c131_not_the_defaults",
    "Nx.c131_vg_declared",
    "Nx.c131_vg_result",
    "Nx.c131_vg_null"
   ],
   "note": "False for one default: the option for doubling the image defaults to false, the default parameters have it true (c131_not_the_defaults); all the rest is proved (c131_params_partial, c131_vg_declared, c131_vg_result). A text option with a null default, which only the C functions can declare, is undefined for VGOptions::get_string (c131_vg_null). The names of the options need wrapping of int in their hash, see C34. Conversions between float and double are parameters."
  },
  {
   "property": "C132",
   "status": "partial",
   "theorems": [
    "Nx.c132_down",
    "Nx.c132_down_low_partial",
    "Nx.c132_down_top",
    "Nx.c132_down_right_iff",
    "Nx.c132_up_outside"
   ],
   "note": "False as stated. Downsampling stays inside (c132_down, with the exact memory after it) but reads with the new stride: right for at most three rows (c132_down_low_partial), otherwise the upper half of the image with every other column for an even width without gaps (c132_down_top), right exactly when the rows agree (c132_down_right_iff). Upsampling writes outside the memory unless the memory was more than twice as large as needed (c132_up_outside)."
  },
  {
   "property": "C133",
   "status": "partial",
   "theorems": [
    "Nx.c133_deriv_x",
    "Nx.c133_deriv_x_false",
    "Nx.c133_deriv_y_false",
    "Nx.c133_subtract",
    "Nx.c133_subtract_partial",
    "Nx.c133_subtract_false",
    "Nx.c133_subtract_bytes_false",
    "Nx.c133_subtract_bytes_same_size",
    "Nx.c133_subtract_bytes_second_safe",
    "Nx.c133_subtract_bytes_second_false"
   ],
   "note": "False as stated. Along rows each column uses the result of the column before (c133_deriv_x, exact for all images without gaps; wrong for every constant image other than 0, c133_deriv_x_false). Along columns the image is cleared before it is read, so that the result is always 0 (c133_deriv_y_false). Subtraction is right for an image without gaps that is not wider than the other one (c133_subtract_partial), exact in general (c133_subtract), wrong otherwise (c133_subtract_false). Exact arithmetic. Differences of 8-bit images stored in the first operand read the second one as float, beyond its memory, for all images of one size (c133_subtract_bytes_same_size); stored in the second operand they are safe but wrong."
  },
  {
   "property": "C134",
   "status": "partial",
   "theorems": [
    "Nx.c134_certified",
    "Nx.c134_stream",
    "Nx.c134_overflow",
    "Nx.c134_short",
    "Nx.c134_prefix",
    "Nx.c134_one_word",
    "Nx.c134_injective_partial",
    "Nx.c134_at_most_two",
    "Nx.c134_at_most_two_keys_partial",
    "Nx.c134_long_false"
   ],
   "note": "Safety, certification and dependence on the first key_length words only are proved for all keys (c134_certified, c134_stream, c134_prefix); a length beyond the key or the largest int is undefined (c134_short, c134_overflow). Every step after a word of the key is a bijection of the state, so two keys that differ in one word are told apart at any length (c134_one_word); keys that differ in several words are told apart up to 613 words (c134_injective_partial). From 625 words on there are two keys with the same generator, so the property is false there (c134_long_false); only 614 to 624 words are not settled. The certification may identify two states: at most two keys give the same generator (c134_at_most_two, c134_at_most_two_keys_partial)."
  },
  {
   "property": "C135",
   "status": "proved",
   "theorems": [
    "Nx.c135_recursion",
    "Nx.c135_same_recursion",
    "Nx.c135_gen_all",
    "Nx.c135_draw",
    "Nx.c135_gen_array",
    "Nx.c135_fill",
    "Nx.c135_unaligned",
    "Nx.c135_program"
   ],
   "note": "c135_program, with c135_recursion (registers), c135_gen_all, c135_gen_array. An array that is not aligned to 16 bytes is undefined with SSE2 only (c135_unaligned). The intrinsics are modelled by their documentation; sfmt_fill_array64 differs in the unit of the size only."
  },
  {
   "property": "C136",
   "status": "proved",
   "theorems": [
    "Nx.c136_total",
    "Nx.c136_pinhole",
    "Nx.c136_planes",
    "Nx.c136_mvp",
    "Nx.c136_mvp_point",
    "Nx.c136_cast",
    "Nx.c136_mvp_null",
    "Nx.c136_depth_range",
    "Nx.c136_depth_order",
    "Nx.c136_visible"
   ],
   "note": "c136_pinhole, c136_planes, c136_depth_range, c136_depth_order, c136_visible, c136_mvp, c136_mvp_point, c136_cast. Exact arithmetic; equal planes or an empty window divide by zero and are excluded by hypotheses; the conversion to GLfloat is an arbitrary function applied to each entry."
  },
  {
   "property": "C137",
   "status": "partial",
   "theorems": [
    "Nx.c137_buffer_new",
    "Nx.c137_buffer_refused",
    "Nx.c137_buffer_negative",
    "Nx.c137_buffer_released",
    "Nx.c137_free_unbinds_other_false",
    "Nx.c137_free_partial",
    "Nx.c137_null",
    "Nx.c137_log_safe",
    "Nx.c137_log_complete",
    "Nx.c137_program_safe",
    "Nx.c137_program_released"
   ],
   "note": "False for bindings: releasing a buffer resets its target even when another buffer is bound there (c137_free_unbinds_other_false); everything else is kept (c137_free_partial, c137_buffer_released). A negative size goes unreported (c137_buffer_negative). Programs and logs: c137_program_safe, c137_program_released, c137_log_safe, c137_log_complete. The library is modelled by its specification."
  },
  {
   "property": "C138",
   "status": "partial",
   "theorems": [
    "Nx.c138_bytes",
    "Nx.c138_memory",
    "Nx.c138_float_false",
    "Nx.c138_self",
    "Nx.c138_refused"
   ],
   "note": "Proved for 8-bit images without gaps between rows, also for another level of the pyramid (c138_bytes). False as stated: an image of type float is accepted, but its bytes are taken for pixels, so that three quarters of it have no effect (c138_float_false, exact; c138_memory is the general form that also covers gaps), and building from the image of the first level itself copies memory onto itself (c138_self). Colour and empty images end the program (c138_refused). Smoothing and the other levels are in C81."
  },
  {
   "property": "C139",
   "status": "partial",
   "theorems": [
    "Nx.c139_result",
    "Nx.c139_row_false",
    "Nx.c139_apply_false",
    "Nx.c139_column_false",
    "Nx.c139_pixel_partial",
    "Nx.c139_refused"
   ],
   "note": "Memory is safe and the result is determined exactly for all images (c139_result): each value seen is a channel of a colour further left, in the end the first byte of the row of the larger image. So the claim is false: of an image of one row only the first pixel matters (c139_row_false), a concrete image comes out wrong (c139_apply_false), and rows are mixed (c139_column_false). It holds for one pixel (c139_pixel_partial). Images of four channels end the program (c139_refused)."
  },
  {
   "property": "C140",
   "status": "partial",
   "theorems": [
    "Nx.c140_step",
    "Nx.c140_run",
    "Nx.c140_no_leak",
    "Nx.c140_handle",
    "Nx.c140_safe",
    "Nx.c140_rebuild_keeps",
    "Nx.c140_temporary_false",
    "Nx.c140_assign_false",
    "Nx.c140_index_false",
    "Nx.c140_alloc_levels_false"
   ],
   "note": "Proved for all programs: the ownership invariant (c140_step, c140_run), no leaks (c140_no_leak), legal calls never leave allocated memory (c140_safe), a handle can be used exactly while its image is a level of the pyramid of some variable (c140_handle), and building again keeps all handles (c140_rebuild_keeps). False as stated: handles do not keep the pyramid, so that those of temporaries and of variables assigned over dangle (c140_temporary_false, c140_assign_false), operator[] does not test the index, also for variables without an image (c140_index_false), and nx_image_pyr_alloc_levels on nx_pyr() frees them (c140_alloc_levels_false)."
  },
  {
   "property": "C141",
   "status": "partial",
   "theorems": [
    "Nx.c141_down",
    "Nx.c141_down_low_partial",
    "Nx.c141_half_top",
    "Nx.c141_half_false",
    "Nx.c141_same",
    "Nx.c141_double_false"
   ],
   "note": "Exact result for all scales below one: only memory of the image is read, and each pixel is the interpolation in the memory read with rows of the new length (c141_down). Right for results of one row (c141_down_low_partial). False otherwise: half the size shows the upper half of the image (c141_half_top) and agrees with scaling into another image only where rows y and 2y agree (c141_half_false); a doubled image has the mean of the first two pixels where the second should be (c141_double_false); for scale one the image is unchanged exactly if its block has room for another row and a sample, and memory behind it is read otherwise (c141_same). Missing: other scales above one."
  },
  {
   "property": "C142",
   "status": "partial",
   "theorems": [
    "Nx.c142_y",
    "Nx.c142_y_odd_partial",
    "Nx.c142_y_even_false",
    "Nx.c142_x",
    "Nx.c142_x_rows_false",
    "Nx.c142_x_row_false",
    "Nx.c142_second_false"
   ],
   "note": "Exact results wherever the memory that is read exists (c142_y, c142_x). Downwards with an odd number of rows all rows but the second are right (c142_y_odd_partial), the second is made from the new first one (c142_second_false). False otherwise: with an even number of rows the row behind the last is read since the height is already halved (c142_y_even_false); sideways the rows 2k and 2k+1 come from the left and right half of row k (c142_x_rows_false); a single row of even length reads memory behind it (c142_x_row_false)."
  },
  {
   "property": "C143",
   "status": "partial",
   "theorems": [
    "Nx.c143_tests",
    "Nx.c143_one_false",
    "Nx.c143_two_false",
    "Nx.c143_far_false",
    "Nx.c143_ends_partial",
    "Nx.c143_clock"
   ],
   "note": "For radii up to 16383 no access is outside, and if the function ends the tests and the limits are as stated (c143_tests); from the radius 3 on it can end after all numbers so far (c143_ends_partial; missing: probabilities). False: with the radius 1 it never ends (c143_one_false), with the radius 2 only after one of 193 of the 2^32 numbers (c143_two_false), and from the radius 16384 on the square of the distance can overflow (c143_far_false). The C++ class does not depend on the clock (c143_clock). The rounding of float is exact."
  },
  {
   "property": "C144",
   "status": "partial",
   "theorems": [
    "Nx.c144_safe",
    "Nx.c144_no_leak",
    "Nx.c144_calls",
    "Nx.c144_alone_partial",
    "Nx.c144_copies_false"
   ],
   "note": "Safety, the tests and the absence of leaks hold for all programs with radii up to 16383 and up to 67108863 octets (c144_safe, c144_no_leak); what each call does to the tests of all variables and to which of them share an extractor is proved (c144_calls). False: variables that are copied share their extractor, so that new tests for the copy are new tests for the original (c144_copies_false), while a new size is not shared. Without copies and assignments calls change no other variable (c144_alone_partial)."
  },
  {
   "property": "C145",
   "status": "partial",
   "theorems": [
    "Nx.c145_equal",
    "Nx.c145_compare",
    "Nx.c145_nan_order_false",
    "Nx.c145_sorted",
    "Nx.c145_nan_sorted_false",
    "Nx.c145_min",
    "Nx.c145_max",
    "Nx.c145_nan_min_false",
    "Nx.c145_array_min",
    "Nx.c145_array_max",
    "Nx.c145_inf_false"
   ],
   "note": "True without NaN: the comparison is a total order of values (c145_compare), equal values have the same bits or are zeros (c145_equal), sorted arrays are unique up to the signs of zeros (c145_sorted), the functions of two numbers (c145_min, c145_max). The minimum and the maximum of an array are right, even with NaN, if an element is neither NaN nor the infinity at that end, and DBL_MAX or -DBL_MAX otherwise (c145_array_min, c145_array_max). False: NaN is equal to all numbers, so that it is no order, and an array has sorted forms with different medians (c145_nan_order_false, c145_nan_sorted_false); the second number is given if one is NaN (c145_nan_min_false); the minimum of infinities is DBL_MAX (c145_inf_false)."
  },
  {
   "property": "C146",
   "status": "partial",
   "theorems": [
    "Nx.c146_nearest",
    "Nx.c146_rounding",
    "Nx.c146_added",
    "Nx.c146_round24",
    "Nx.c146_first",
    "Nx.c146_first_false",
    "Nx.c146_length",
    "Nx.c146_inside",
    "Nx.c146_distinct",
    "Nx.c146_distinct_false",
    "Nx.c146_inside_false",
    "Nx.c146_order",
    "Nx.c146_halved"
   ],
   "note": "Rounding to float is modelled bit for bit, without overflow: nearest number, even of two (c146_nearest); it is what C83 and C94 ask for (c146_rounding), the rounding of natural numbers elsewhere (c146_round24), and a rounded addition of doubles is what C102 asks for (c146_added). True: the first level up to 2^24 pixels (c146_first); the lengths of levels (c146_length); inside, for scales of at least one and images up to 2^22 (c146_inside), different and in order (c146_distinct, c146_order); exact for powers of two (c146_halved). False: first levels smaller and larger than the image beyond 2^24 (c146_first_false), positions outside of the image there and on enlarged levels (c146_inside_false), equal positions on enlarged levels (c146_distinct_false). The scale itself, computed by pow, is a parameter."
  },
  {
   "property": "C147",
   "status": "partial",
   "theorems": [
    "Nx.c147_value_partial",
    "Nx.c147_black_white",
    "Nx.c147_value_false",
    "Nx.c147_order",
    "Nx.c147_image_partial"
   ],
   "note": "False: 79/255 becomes the float below, and that one the next (c147_value_false). True up to four units of the 24th digit for values from 2^-120 on (c147_value_partial, c147_image_partial), exactly for black and white (c147_black_white), and the order is kept exactly (c147_order). Through nx_image_convert_type the way back always ends with an error (C94); the theorem for images is about the conversion behind that check."
  },
  {
   "property": "C148",
   "status": "partial",
   "theorems": [
    "Nx.c148_scale_uc_partial",
    "Nx.c148_scale_f32_partial",
    "Nx.c148_outside_false"
   ],
   "note": "False for wide images: with 2762 columns and the scale 16771141/16777216 the last position is rounded up to the last column, and the byte behind the last row is read (c148_outside_false). True for images of up to 2761 columns and rows, the greatest bound there is (c148_scale_uc_partial, c148_scale_f32_partial): the sizes are correct up to one part in 2^24, the positions up to one part in 8000000 of the width, the values up to 1/8192. Not covered: float values outside of 0..255; exact widths above 2761 at which it fails."
  },
  {
   "property": "C149",
   "status": "partial",
   "theorems": [
    "Nx.c149_error_partial",
    "Nx.c149_two_partial",
    "Nx.c149_integers",
    "Nx.c149_equal_integers",
    "Nx.c149_equal_false",
    "Nx.c149_middle"
   ],
   "note": "False: three times the double 0.1 have a mean above 0.1 and a standard deviation above zero (c149_equal_false). True for ints, up to 4194304 of them: the mean is the double nearest to the exact one, between all bounds, and equal ints have the standard deviation zero (c149_integers, c149_equal_integers); for one or two doubles (c149_two_partial); for any number of doubles up to (n + 2) / 2^53 of the greatest magnitude (c149_error_partial). The middle of two doubles is between them and monotone (c149_middle). Overflow is not modelled; the error of the standard deviation is not bounded."
  },
  {
   "property": "C150",
   "status": "partial",
   "theorems": [
    "Nx.c150_double",
    "Nx.c150_float",
    "Nx.c150_float_false",
    "Nx.c150_noise",
    "Nx.c150_noise_false"
   ],
   "note": "True for double: all multiples of 2^-53 below 1, each for 2048 of the 2^64 pairs (c150_double). False for float: 128 of the 2^32 numbers give 1 (c150_float_false, exactly these), otherwise from 0 to 1 and within 2^-25 of the quotient (c150_float). Noise pixels are always defined (c150_noise), but 16843007 numbers give 254 and only 128 give 255 (c150_noise_false)."
  },
  {
   "property": "C151",
   "status": "partial",
   "theorems": [
    "Nx.c151_rows_uc_partial",
    "Nx.c151_box_uc_partial",
    "Nx.c151_white_false",
    "Nx.c151_integers",
    "Nx.c151_constant_false",
    "Nx.c151_f32_false"
   ],
   "note": "True for bytes and radii up to 32896: every pixel is the exact mean without its fraction, rows then columns give the image of exact arithmetic (c151_rows_uc_partial, c151_box_uc_partial); the bound is sharp, with radius 32897 all white images become 254 (c151_white_false). True up to one rounding for integer float samples with sums up to 2^24 (c151_integers). False for float images: a constant image can become brighter (c151_constant_false), and after one sample 2^26 all means of windows of ones are about 1/3, for every width (c151_f32_false)."
  },
  {
   "property": "C152",
   "status": "partial",
   "theorems": [
    "Nx.c152_kernel",
    "Nx.c152_smooth_uc_partial",
    "Nx.c152_sum_false",
    "Nx.c152_white_false"
   ],
   "note": "Proved for kernels of up to 4096 values: none is negative, each is within nk/2^21 of the exact kernel, their sum within 3nk/2^23 of one (c152_kernel); for 8-bit images smoothing is always defined and each pass gives the weighted mean without its fraction, up to nk/2^15 (c152_smooth_uc_partial). False as stated: for the standard deviation 1 and truncation factor 3 the sum is less than one (c152_sum_false) and every white image becomes 253 (c152_white_false; exp is taken to be rounded to nearest)."
  },
  {
   "property": "C153",
   "status": "partial",
   "theorems": [
    "Nx.c153_error",
    "Nx.c153_order",
    "Nx.c153_nonneg",
    "Nx.c153_same_false"
   ],
   "note": "Proved: the error is at most 15 picoseconds up to 36 hours (c153_error), longer times are measured as longer (c153_order), and no time is negative, however long (c153_nonneg). False: one nanosecond is measured differently if a second begins in between, at all times of the clock (c153_same_false)."
  },
  {
   "property": "C154",
   "status": "partial",
   "theorems": [
    "Nx.c154_buffer",
    "Nx.c154_image",
    "Nx.c154_negative_false",
    "Nx.c154_zero_false",
    "Nx.c154_alloc"
   ],
   "note": "Proved: the size requested and when the program stops (c154_buffer, c154_alloc), and that the image buffer is enough for both directions (c154_image). False: with an alignment of 16, lengths from -3 to -1 wrap round to a request for no bytes, which is granted (c154_negative_false); an alignment of zero is undefined (c154_zero_false). Taken as parameters: aligned_alloc and the truncated kernel width."
  },
  {
   "property": "C155",
   "status": "partial",
   "theorems": [
    "Nx.c155_deriv_x_uc",
    "Nx.c155_deriv_x_f32",
    "Nx.c155_deriv_y_uc_partial",
    "Nx.c155_deriv_y_f32_partial",
    "Nx.c155_sign",
    "Nx.c155_convert",
    "Nx.c155_convert_false",
    "Nx.c155_padded_false"
   ],
   "note": "Proved: one rounding for bytes and floats in both directions (c155_deriv_x_uc, c155_deriv_x_f32, c155_deriv_y_uc_partial, c155_deriv_y_f32_partial), exact zeros and signs (c155_sign), and a distance of at most 2^-22 from the derivative of the converted image (c155_convert). False: the two are not equal (c155_convert_false); with padding the last row of the vertical derivative is wrong (c155_padded_false)."
  },
  {
   "property": "C156",
   "status": "partial",
   "theorems": [
    "Nx.c156_range",
    "Nx.c156_normalize_partial",
    "Nx.c156_symmetric_partial",
    "Nx.c156_cancel_false",
    "Nx.c156_white_false"
   ],
   "note": "Proved: range (c156_range), order and an error of at most 2^-20 times one plus the ratio of the greatest absolute value to the range (c156_normalize_partial), and for symmetric mode an error of at most 2^-21 for all ranges, and zero to one half (c156_symmetric_partial). False: the samples 16777001 and 16777004 become 1/2 and 1 (c156_cancel_false), and 0 and 41 become 0 and 1 - 2^-24 (c156_white_false). Missing: images whose greatest sample is the first one only, for which C76 shows that the maximum is not found."
  },
  {
   "property": "C157",
   "status": "partial",
   "theorems": [
    "Nx.c157_axpy_uc",
    "Nx.c157_order",
    "Nx.c157_near",
    "Nx.c157_integers",
    "Nx.c157_exact_false",
    "Nx.c157_range_false"
   ],
   "note": "Proved: the value of every sample (c157_axpy_uc), order (c157_order), defined and at most one from the result of exact arithmetic (c157_near), exact for integer factors and offsets (c157_integers). False: exact truncation, 0.7f times 10 becomes 7 although it is less than 7 (c157_exact_false), and limiting of large numbers, which are undefined (c157_range_false)."
  },
  {
   "property": "C158",
   "status": "proved",
   "theorems": [
    "Nx.c158_integers",
    "Nx.c158_copy",
    "Nx.c158_pixel",
    "Nx.c158_constant_false",
    "Nx.c158_position",
    "Nx.c158_loops",
    "Nx.c158_total",
    "Nx.c158_drift_false",
    "Nx.c158_inside",
    "Nx.c158_background",
    "Nx.c158_image",
    "Nx.c158_safe",
    "Nx.c158_defined"
   ],
   "note": "Equal to exact arithmetic for translations, reflections and right angles (c158_integers), pixels are copied (c158_copy), the loops in terms of positions (c158_loops), error of positions (c158_position, c158_total), interpolation for a given position (c158_pixel), both together inside the source (c158_inside) and for a whole image (c158_image), the background (c158_background), and no undefined behaviour without reflection (c158_safe, c158_defined). Not claimed because false: a constant image stays constant, 3 becomes 2 (c158_constant_false), and the positions are rounded only once (c158_drift_false). The product with a sample of the noise is not rounded in the model."
  },
  {
   "property": "C159",
   "status": "proved",
   "theorems": [
    "Nx.c159_constant",
    "Nx.c159_warp",
    "Nx.c159_shift",
    "Nx.c159_position",
    "Nx.c159_pixel"
   ],
   "note": "The constants (c159_constant), equality with the affine warp (c159_warp), the translation (c159_shift), positions (c159_position) and pixels inside the source (c159_pixel). The exact rotation uses the constant SQRT2_INV, whose square is one half up to 2^-24. The variant for float images is C160."
  },
  {
   "property": "C160",
   "status": "proved",
   "theorems": [
    "Nx.c160_integers",
    "Nx.c160_dark"
   ],
   "note": "All samples are integers, of magnitude at most 9.01 times the largest (c160_integers); images with samples up to one tenth become black (c160_dark). The result of the interpolation is kept in an int, as c78_rotate_f32_dark shows in exact arithmetic."
  },
  {
   "property": "C161",
   "status": "proved",
   "theorems": [
    "Nx.c161_sample",
    "Nx.c161_loops",
    "Nx.c161_stage",
    "Nx.c161_inside"
   ],
   "note": "Pixels agree with those of C158 for a black background (c161_sample); positions do not depend on the pixels left out (c161_loops); cleared buffers become the warped image (c161_stage); the error inside is at most that of the position times 510, and 1/2000, and truncation (c161_inside)."
  },
  {
   "property": "C162",
   "status": "proved",
   "theorems": [
    "Nx.c162_same",
    "Nx.c162_repeat",
    "Nx.c162_loops",
    "Nx.c162_fixed",
    "Nx.c162_defined"
   ],
   "note": "Without repetition pixels are those of C92 at the rounded position (c162_same); with repetition exactly the pixels outside of the interior are replaced, by the interpolation at the position moved to the border up to 1/1000 and truncation, and nothing is read outside of the image (c162_repeat); positions do not depend on the pixels replaced (c162_loops); whole images with a fixed background (c162_fixed); all kinds are defined and keep pixels from the interior (c162_defined)."
  }
 ]
}