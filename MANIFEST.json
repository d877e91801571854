{
 "claims": [
  {
   "property": "C01",
   "status": "proved",
   "theorems": [
    "Sacf.C01_flat_constructor_with_errors",
    "Sacf.C01_flat_constructor"
   ],
   "note": ""
  },
  {
   "property": "C02",
   "status": "partial",
   "theorems": [
    "Sacf.C02_false",
    "Sacf.C02_rejection_partial",
    "Sacf.C02_surplus_ignored_partial"
   ],
   "note": "The property is false of the code; C02_false refutes it with a witness, C02_rejection_partial and C02_surplus_ignored_partial say what holds."
  },
  {
   "property": "C03",
   "status": "proved",
   "theorems": [
    "Sacf.C03_round_trip_errors",
    "Sacf.C03_round_trip",
    "Sacf.C03_flat_is_one_row"
   ],
   "note": ""
  },
  {
   "property": "C04",
   "status": "proved",
   "theorems": [
    "Sacf.C04_normalised_times",
    "Sacf.C04_shift",
    "Sacf.C04_rounded"
   ],
   "note": ""
  },
  {
   "property": "C05",
   "status": "proved",
   "theorems": [
    "Sacf.C05_error",
    "Sacf.C05_binary64",
    "Sacf.C05_error_missing",
    "Sacf.C05_binary64_missing",
    "Sacf.C05_means",
    "Sacf.C05_all_missing"
   ],
   "note": ""
  },
  {
   "property": "C06",
   "status": "proved",
   "theorems": [
    "Sacf.C06_median",
    "Sacf.C06_binary64"
   ],
   "note": ""
  },
  {
   "property": "C07",
   "status": "proved",
   "theorems": [
    "Sacf.C07_max_time",
    "Sacf.C07_last"
   ],
   "note": ""
  },
  {
   "property": "C08",
   "status": "partial",
   "theorems": [
    "Sacf.C08_false",
    "Sacf.C08_ub_iff_partial",
    "Sacf.C08_rectangular_safe_partial"
   ],
   "note": "False of the code (C08_false); C08_ub_iff_partial is the exact condition."
  },
  {
   "property": "C09",
   "status": "partial",
   "theorems": [
    "Sacf.C09_false",
    "Sacf.C09_errors_iff_partial",
    "Sacf.C09_errors_flat_iff_partial"
   ],
   "note": "False of the code (C09_false); C09_errors_iff_partial is the exact condition."
  },
  {
   "property": "C10",
   "status": "proved",
   "theorems": [
    "Sacf.C10_round_trip",
    "Sacf.C10_round_trip_errors",
    "Sacf.C10_every_table"
   ],
   "note": ""
  },
  {
   "property": "C11",
   "status": "proved",
   "theorems": [
    "Sacf.C11_neutral_line",
    "Sacf.C11_neutral_kinds"
   ],
   "note": ""
  },
  {
   "property": "C12",
   "status": "proved",
   "theorems": [
    "Sacf.C12_separators"
   ],
   "note": ""
  },
  {
   "property": "C13",
   "status": "proved",
   "theorems": [
    "Sacf.C13_outcome"
   ],
   "note": ""
  },
  {
   "property": "C14",
   "status": "partial",
   "theorems": [
    "Sacf.C14_meaning",
    "Sacf.C14_every_file",
    "Sacf.C14_false",
    "Sacf.C14_three_columns_partial",
    "Sacf.C14_no_errors_partial",
    "Sacf.C14_errors_ub_iff_partial"
   ],
   "note": "False of the code (C14_false). C14_meaning describes what is built from every file; C14_three_columns_partial and C14_no_errors_partial are the cases in which the property holds; C14_errors_ub_iff_partial is the exact condition for the out-of-bounds read."
  },
  {
   "property": "C15",
   "status": "proved",
   "theorems": [
    "Sacf.C15_defaults",
    "Sacf.C15_overrides",
    "Sacf.C15_rounded"
   ],
   "note": ""
  },
  {
   "property": "C16",
   "status": "partial",
   "theorems": [
    "Sacf.C16_increasing_partial",
    "Sacf.C16_single_partial",
    "Sacf.C16_repeated_time",
    "Sacf.C16_false",
    "Sacf.C16_rounded"
   ],
   "note": "False of the code (C16_false; C16_repeated_time for every sorted series with a repeated time; C16_rounded in every rounding, also for times that only coincide after rounding); C16_increasing_partial and C16_single_partial give the exact behaviour for strictly increasing times (exact arithmetic)."
  },
  {
   "property": "C17",
   "status": "proved",
   "theorems": [
    "Sacf.C17_lag_list",
    "Sacf.C17_grid",
    "Sacf.C17_rounded"
   ],
   "note": ""
  },
  {
   "property": "C18",
   "status": "partial",
   "theorems": [
    "Sacf.C18_zero_once_partial",
    "Sacf.C18_at_most_once_partial",
    "Sacf.C18_default_partial",
    "Sacf.C18_false_missing",
    "Sacf.C18_false_outside",
    "Sacf.C18_rounded_partial",
    "Sacf.C18_default_rounded_partial"
   ],
   "note": "False at two corners (C18_false_missing, C18_false_outside); C18_zero_once_partial is what holds, C18_default_partial covers every default call; C18_rounded_partial and C18_default_rounded_partial are the same for every rounding (binary64)."
  },
  {
   "property": "C19",
   "status": "proved",
   "theorems": [
    "Sacf.C19_nearest",
    "Sacf.C19_rounded"
   ],
   "note": ""
  },
  {
   "property": "C20",
   "status": "partial",
   "theorems": [
    "Sacf.C20_formula_partial",
    "Sacf.C20_below_one_unit_partial",
    "Sacf.C20_overflow",
    "Sacf.C20_integer_rounded_partial",
    "Sacf.C20_integer_binary64_partial",
    "Sacf.C20_false",
    "Sacf.C20_integer_partial"
   ],
   "note": "False of the code when the unqualified abs resolves to int abs(int) (C20_false, witness). What is returned then: C20_formula_partial in general, C20_below_one_unit_partial for times less than one unit apart, C20_overflow for distances of 2^31. C20_integer_partial, C20_integer_rounded_partial, C20_integer_binary64_partial: for integer times and lags both overloads give identical results."
  },
  {
   "property": "C21",
   "status": "partial",
   "theorems": [
    "Sacf.C21_safe_iff_partial",
    "Sacf.C21_default_range_partial",
    "Sacf.C21_false",
    "Sacf.C21_false_range"
   ],
   "note": "False of the code (C21_false, C21_false_range); C21_safe_iff_partial is the exact condition in any arithmetic, C21_default_range_partial the positive part in exact arithmetic (C46 in binary64)."
  },
  {
   "property": "C22",
   "status": "proved",
   "theorems": [
    "Sacf.C22_shape"
   ],
   "note": ""
  },
  {
   "property": "C23",
   "status": "proved",
   "theorems": [
    "Sacf.C23_independent",
    "Sacf.C23_select"
   ],
   "note": ""
  },
  {
   "property": "C24",
   "status": "proved",
   "theorems": [
    "Sacf.C24_drivers_agree"
   ],
   "note": ""
  },
  {
   "property": "C25",
   "status": "proved",
   "theorems": [
    "Sacf.C25_zero_lag",
    "Sacf.C25_binary64",
    "Sacf.C25_error",
    "Sacf.C25_binary64_gaussian",
    "Sacf.C25_rounded"
   ],
   "note": ""
  },
  {
   "property": "C26",
   "status": "partial",
   "theorems": [
    "Sacf.C26_ratio_partial",
    "Sacf.C26_zero_lag_partial",
    "Sacf.C26_false_binary64",
    "Sacf.C26_binary64_gaussian_partial",
    "Sacf.C26_zero_binary64_gaussian_partial",
    "Sacf.C26_binary64_partial",
    "Sacf.C26_zero_binary64_partial"
   ],
   "note": "False of the code as stated; C26_ratio_partial is the exact law relating the returned value to the published one in exact arithmetic, C26_zero_lag_partial its value at lag 0. C26_binary64_partial, C26_zero_binary64_partial: the same in binary64 up to M 2^-53 times the condition number, for values not representable as float. C26_binary64_gaussian_partial, C26_zero_binary64_gaussian_partial: the Gaussian weight, against the real exponential."
  },
  {
   "property": "C27",
   "status": "proved",
   "theorems": [
    "Sacf.C27_error",
    "Sacf.C27_binary64_gaussian",
    "Sacf.C27_affine",
    "Sacf.C27_zero_false"
   ],
   "note": ""
  },
  {
   "property": "C28",
   "status": "proved",
   "theorems": [
    "Sacf.C28_error",
    "Sacf.C28_depends_on_differences",
    "Sacf.C28_shift",
    "Sacf.C28_false_binary64"
   ],
   "note": "In exact arithmetic for every shift (C28_shift), law-free in terms of the normalised times; in floating point for times on exact grids (C29_rounded, C29_binary64 with p = 1), false otherwise (C28_false_binary64)."
  },
  {
   "property": "C29",
   "status": "proved",
   "theorems": [
    "Sacf.C29_error",
    "Sacf.C29_time_unit",
    "Sacf.C29_false_intAbs",
    "Sacf.C29_rounded",
    "Sacf.C29_binary64",
    "Sacf.C29_false_binary64"
   ],
   "note": "With floating-point abs; if the unqualified abs resolves to int abs(int) the property is false (C29_false_intAbs). C29_rounded and C29_binary64: bit-for-bit in floating point for times on exact grids; C29_false_binary64: not for decimal factors."
  },
  {
   "property": "C30",
   "status": "proved",
   "theorems": [
    "Sacf.C30_regular",
    "Sacf.C30_binary64_gaussian",
    "Sacf.C30_binary64_any_weight"
   ],
   "note": ""
  },
  {
   "property": "C31",
   "status": "partial",
   "theorems": [
    "Sacf.C31_surplus_partial",
    "Sacf.C31_false",
    "Sacf.C31_error_partial",
    "Sacf.C31_binary64_gaussian_partial"
   ],
   "note": "False of the code (C31_false); C31_surplus_partial gives the exact asymmetry on a regular grid. C31_error_partial: the same in binary64, up to the rounding error bound. C31_binary64_gaussian_partial: the Gaussian weight."
  },
  {
   "property": "C32",
   "status": "proved",
   "theorems": [
    "Sacf.C32_values",
    "Sacf.C32_range",
    "Sacf.C32_decreasing",
    "Sacf.C32_ratio",
    "Sacf.C32_alpha",
    "Sacf.C32_rounded"
   ],
   "note": ""
  },
  {
   "property": "C33",
   "status": "partial",
   "theorems": [
    "Sacf.C33_bound_partial",
    "Sacf.C33_regular_partial",
    "Sacf.C33_false",
    "Sacf.C33_error_partial",
    "Sacf.C33_error_bound_partial",
    "Sacf.C33_gaps_partial",
    "Sacf.C33_regular_any_lag_partial",
    "Sacf.C33_gaps_binary64_partial",
    "Sacf.C33_gaps_binary64_gaussian_partial",
    "Sacf.C33_binary64_gaussian_partial"
   ],
   "note": "The bound 1 is false in general (C33_false); C33_bound_partial is the general bound, C33_regular_partial the bound 1 on regular grids at non-negative lags. C33_error_partial carries the bound on regular grids to binary64. C33_error_bound_partial: the bound for any times and lags in binary64. C33_gaps_partial and C33_gaps_binary64_partial: the bound from the gaps between the times, for any non-negative lag; C33_regular_any_lag_partial: the bound 1 on regular grids at non-negative lags that need not be whole. C33_binary64_gaussian_partial: the bound for the Gaussian weight in binary64."
  },
  {
   "property": "C34",
   "status": "partial",
   "theorems": [
    "Sacf.C34_constant_partial",
    "Sacf.C34_constant_narrowed_partial",
    "Sacf.C34_false_binary64",
    "Sacf.C34_rounded_partial",
    "Sacf.C34_binary64_partial"
   ],
   "note": "C34_constant_partial: in exact arithmetic with float32-representable values; C34_constant_narrowed_partial says what happens when the constant is not representable in float32. False in binary64 (C34_false_binary64): the computed mean of a constant row may differ from the constant. C34_rounded_partial: NaN in any rounding if the constant is a float and the computed mean is the constant; C34_binary64_partial: that is so in binary64 for c = n 2^e with |n| < 2^24 and M |n| <= 2^53, e.g. every integer below 2^22."
  },
  {
   "property": "C35",
   "status": "partial",
   "theorems": [
    "Sacf.C35_poisoned",
    "Sacf.C35_nonpositive_lags",
    "Sacf.C35_binary64_gaussian_partial",
    "Sacf.C35_formula_partial",
    "Sacf.C35_nan_iff_partial",
    "Sacf.C35_rounded_poisoned",
    "Sacf.C35_rounded_nonpositive",
    "Sacf.C35_error_partial",
    "Sacf.C35_any_partial",
    "Sacf.C35_binary64_partial",
    "Sacf.C35_any_binary64_partial"
   ],
   "note": "False of the code: C35_poisoned, C35_nonpositive_lags. C35_formula_partial and C35_nan_iff_partial: which lags are NaN, exactly, and the value at all the others (exact arithmetic). C35_rounded_poisoned, C35_rounded_nonpositive: NaN for any rounding; C35_error_partial, C35_any_partial, C35_binary64_partial, C35_any_binary64_partial: the same characterisation in rounded arithmetic and binary64, with error bounds. C35_binary64_gaussian_partial: the Gaussian weight, against the real exponential."
  },
  {
   "property": "C36",
   "status": "partial",
   "theorems": [
    "Sacf.C36_raises_iff_partial",
    "Sacf.C36_formula_partial",
    "Sacf.C36_beyond_partial",
    "Sacf.C36_negative_lag_partial",
    "Sacf.C36_zero_lag_partial",
    "Sacf.C36_regular_partial",
    "Sacf.C36_false",
    "Sacf.C36_rounded_raises_iff_partial",
    "Sacf.C36_default_partial",
    "Sacf.C36_rounded_value_partial",
    "Sacf.C36_rounded_self_partial",
    "Sacf.C36_error_partial",
    "Sacf.C36_binary64_partial",
    "Sacf.C36_binary64_beyond_partial",
    "Sacf.C36_binary64_negative_partial",
    "Sacf.C36_binary64_zero_partial",
    "Sacf.C36_binary64_default_partial",
    "Sacf.C36_binary64_gaussian_partial",
    "Sacf.C36_binary64_negative_gaussian_partial",
    "Sacf.C36_binary64_zero_gaussian_partial"
   ],
   "note": "False of the code (C36_false). C36_raises_iff_partial: exactly when the call raises; C36_formula_partial, C36_beyond_partial, C36_negative_lag_partial, C36_zero_lag_partial, C36_regular_partial: exactly what it returns otherwise (exact arithmetic, floating-point abs). C36_rounded_raises_iff_partial, C36_rounded_value_partial, C36_rounded_self_partial: the same for any rounding; C36_error_partial and C36_binary64_*: error bounds, and exactly when the default call raises. C36_binary64_gaussian_partial, C36_binary64_negative_gaussian_partial, C36_binary64_zero_gaussian_partial: the Gaussian weight, against the real exponential."
  },
  {
   "property": "C37",
   "status": "proved",
   "theorems": [
    "Sacf.C37_unknown_selection",
    "Sacf.C37_unknown_weight",
    "Sacf.C37_known_names",
    "Sacf.C37_unknown_weight_fast"
   ],
   "note": ""
  },
  {
   "property": "C38",
   "status": "partial",
   "theorems": [
    "Sacf.C38_empty_range_partial"
   ],
   "note": "Holds on the C++ path, fails on the Python path; both proved, for every arithmetic."
  },
  {
   "property": "C39",
   "status": "proved",
   "theorems": [
    "Sacf.C39_natural_total"
   ],
   "note": ""
  },
  {
   "property": "C40",
   "status": "proved",
   "theorems": [
    "Sacf.C40_idempotent"
   ],
   "note": ""
  },
  {
   "property": "C41",
   "status": "proved",
   "theorems": [
    "Sacf.C41_history",
    "Sacf.C41_clear_breaks",
    "Sacf.C41_clear_then_compute"
   ],
   "note": ""
  },
  {
   "property": "C42",
   "status": "proved",
   "theorems": [
    "Sacf.C42_repeatable"
   ],
   "note": ""
  },
  {
   "property": "C43",
   "status": "partial",
   "theorems": [
    "Sacf.C43_reads_cleared_vector_partial"
   ],
   "note": "False of the code: proved that the read always happens, and what it finds."
  },
  {
   "property": "C44",
   "status": "proved",
   "theorems": [
    "Sacf.Mem.C44_alive",
    "Sacf.Mem.C44_held",
    "Sacf.Mem.C44_no_dangling",
    "Sacf.Mem.C44_no_leak"
   ],
   "note": ""
  },
  {
   "property": "C45",
   "status": "proved",
   "theorems": [
    "Sacf.C45_never_returns",
    "Sacf.C45_overflow"
   ],
   "note": ""
  },
  {
   "property": "C46",
   "status": "proved",
   "theorems": [
    "Sacf.C46_default_safe",
    "Sacf.C46_witness"
   ],
   "note": ""
  },
  {
   "property": "C47",
   "status": "proved",
   "theorems": [
    "Sacf.C47_formula",
    "Sacf.C47_value"
   ],
   "note": ""
  },
  {
   "property": "C48",
   "status": "proved",
   "theorems": [
    "Sacf.C48_two_arguments",
    "Sacf.C48_three_arguments",
    "Sacf.C48_mixed",
    "Sacf.C48_filename"
   ],
   "note": ""
  },
  {
   "property": "C49",
   "status": "proved",
   "theorems": [
    "Sacf.C49_fuel_suffices",
    "Sacf.C49_fuel_suffices_cpp",
    "Sacf.C49_init",
    "Sacf.C49_autocorrelation",
    "Sacf.C49_calls",
    "Sacf.C49_iterator"
   ],
   "note": ""
  },
  {
   "property": "C50",
   "status": "proved",
   "theorems": [
    "Sacf.C50_lag_only"
   ],
   "note": ""
  },
  {
   "property": "C51",
   "status": "proved",
   "theorems": [
    "Sacf.C51_errors_unused",
    "Sacf.C51_errors_unused_table"
   ],
   "note": ""
  },
  {
   "property": "C52",
   "status": "proved",
   "theorems": [
    "Sacf.C52_beyond",
    "Sacf.C52_span",
    "Sacf.C52_before",
    "Sacf.C52_rounded"
   ],
   "note": ""
  },
  {
   "property": "C53",
   "status": "proved",
   "theorems": [
    "Sacf.C53_float_overflow"
   ],
   "note": ""
  },
  {
   "property": "C54",
   "status": "proved",
   "theorems": [
    "Sacf.C54_single"
   ],
   "note": ""
  },
  {
   "property": "C55",
   "status": "proved",
   "theorems": [
    "Sacf.C55_fast_rounded",
    "Sacf.C55_alpha_sign",
    "Sacf.C55_alpha_zero"
   ],
   "note": ""
  },
  {
   "property": "C56",
   "status": "proved",
   "theorems": [
    "Sacf.C56_decreasing",
    "Sacf.C56_order_matters",
    "Sacf.C56_rounded"
   ],
   "note": ""
  },
  {
   "property": "C57",
   "status": "proved",
   "theorems": [
    "Sacf.C57_iterator_reuse"
   ],
   "note": ""
  },
  {
   "property": "C58",
   "status": "proved",
   "theorems": [
    "Sacf.C58_too_small",
    "Sacf.C58_larger",
    "Sacf.C58_new",
    "Sacf.C58_created"
   ],
   "note": ""
  },
  {
   "property": "C59",
   "status": "proved",
   "theorems": [
    "Sacf.C59_negation",
    "Sacf.C59_binary64"
   ],
   "note": ""
  },
  {
   "property": "C60",
   "status": "proved",
   "theorems": [
    "Sacf.C60_default_lags",
    "Sacf.C60_value",
    "Sacf.C60_textbook",
    "Sacf.C60_regular_lags",
    "Sacf.C60_binary64",
    "Sacf.C60_false_decimal"
   ],
   "note": ""
  },
  {
   "property": "C61",
   "status": "proved",
   "theorems": [
    "Sacf.C61_error",
    "Sacf.C61_gaussian",
    "Sacf.C61_binary64_irregular",
    "Sacf.C61_binary64",
    "Sacf.C61_binary64_gaussian"
   ],
   "note": ""
  },
  {
   "property": "C62",
   "status": "proved",
   "theorems": [
    "Sacf.C62_flat",
    "Sacf.C62_flatErr",
    "Sacf.C62_table",
    "Sacf.C62_tableErr",
    "Sacf.C62_file",
    "Sacf.C62_autocorrelation",
    "Sacf.C62_inputs"
   ],
   "note": ""
  },
  {
   "property": "C63",
   "status": "partial",
   "theorems": [
    "Sacf.C63_column_partial",
    "Sacf.C63_false"
   ],
   "note": "False of the code (C63_false: out-of-bounds read); C63_column_partial says what is built in each case."
  },
  {
   "property": "C64",
   "status": "proved",
   "theorems": [
    "Sacf.C64_numbers",
    "Sacf.C64_type_error"
   ],
   "note": ""
  },
  {
   "property": "C65",
   "status": "proved",
   "theorems": [
    "Sacf.C65_history",
    "Sacf.C65_failed_call",
    "Sacf.C65_same_exceptions"
   ],
   "note": ""
  },
  {
   "property": "C66",
   "status": "proved",
   "theorems": [
    "Sacf.C66_chosen_lags",
    "Sacf.C66_slots"
   ],
   "note": ""
  },
  {
   "property": "C67",
   "status": "proved",
   "theorems": [
    "Sacf.C67_clean",
    "Sacf.C67_add"
   ],
   "note": ""
  },
  {
   "property": "C68",
   "status": "proved",
   "theorems": [
    "Sacf.C68_strings",
    "Sacf.C68_selection",
    "Sacf.C68_weight",
    "Sacf.C68_autocorrelation",
    "Sacf.C68_weight_fast"
   ],
   "note": ""
  },
  {
   "property": "C69",
   "status": "proved",
   "theorems": [
    "Sacf.C69_parameters",
    "Sacf.C69_data"
   ],
   "note": ""
  },
  {
   "property": "C70",
   "status": "proved",
   "theorems": [
    "Sacf.C70_binary64_gaussian",
    "Sacf.C70_binary64_gaussian_clear",
    "Sacf.C70_binary64",
    "Sacf.C70_binary64_clear",
    "Sacf.C70_error",
    "Sacf.C70_gaussian",
    "Sacf.C70_clear_cut"
   ],
   "note": ""
  },
  {
   "property": "C71",
   "status": "proved",
   "theorems": [
    "Sacf.C71_drift",
    "Sacf.C71_default",
    "Sacf.C71_binary64"
   ],
   "note": ""
  },
  {
   "property": "C72",
   "status": "proved",
   "theorems": [
    "Sacf.C72_natural",
    "Sacf.C72_fast",
    "Sacf.C72_deltaT",
    "Sacf.C72_find",
    "Sacf.C72_find_unsafe",
    "Sacf.C72_find_value",
    "Sacf.C72_leftover"
   ],
   "note": ""
  },
  {
   "property": "C73",
   "status": "proved",
   "theorems": [
    "Sacf.C73_interleaving",
    "Sacf.C73_correlator",
    "Sacf.C73_protocol",
    "Sacf.C73_k_before",
    "Sacf.C73_k_after"
   ],
   "note": ""
  },
  {
   "property": "C74",
   "status": "proved",
   "theorems": [
    "Sacf.C74_binary64_any_weight",
    "Sacf.C74_reversal",
    "Sacf.C74_irregular",
    "Sacf.C74_binary64"
   ],
   "note": ""
  },
  {
   "property": "C75",
   "status": "proved",
   "theorems": [
    "Sacf.C75_binary64_gaussian",
    "Sacf.C75_binary64_any_weight",
    "Sacf.C75_repetition",
    "Sacf.C75_periodic",
    "Sacf.C75_binary64_repetition",
    "Sacf.C75_binary64_periodic"
   ],
   "note": ""
  },
  {
   "property": "C76",
   "status": "proved",
   "theorems": [
    "Sacf.C76_binary64_any_weight",
    "Sacf.C76_sum",
    "Sacf.C76_binary64"
   ],
   "note": ""
  },
  {
   "property": "C77",
   "status": "proved",
   "theorems": [
    "Sacf.C77_binary64_large_gaussian",
    "Sacf.C77_binary64_small_gaussian",
    "Sacf.C77_large",
    "Sacf.C77_small",
    "Sacf.C77_binary64_large",
    "Sacf.C77_binary64_small",
    "Sacf.C77_large_gaussian",
    "Sacf.C77_small_gaussian"
   ],
   "note": ""
  },
  {
   "property": "C78",
   "status": "partial",
   "theorems": [
    "Sacf.C78_binary64_gaussian_partial",
    "Sacf.C78_bound_partial",
    "Sacf.C78_gaussian_partial",
    "Sacf.C78_false",
    "Sacf.C78_binary64_partial"
   ],
   "note": "False of the code (C78_false: for every eta in (0, 1/2], two inputs eta apart with correlations 1/4 and 0). C78_bound_partial: the bound holds when no shifted time is within 2 eta + |k - k'| of the last time and the matched sample is closer than any other by more than 4 eta + 2 |k - k'|; C78_gaussian_partial the same for the Gaussian weight, C78_binary64_partial in binary64. C78_binary64_gaussian_partial: the Gaussian weight in binary64."
  },
  {
   "property": "C79",
   "status": "proved",
   "theorems": [
    "Sacf.C79_binary64_gaussian",
    "Sacf.C79_binary64_any_weight",
    "Sacf.C79_noise",
    "Sacf.C79_regular",
    "Sacf.C79_binary64",
    "Sacf.C79_binary64_regular"
   ],
   "note": ""
  },
  {
   "property": "C80",
   "status": "proved",
   "theorems": [
    "Sacf.C80_binary64_any_weight",
    "Sacf.C80_semidefinite",
    "Sacf.C80_irregular",
    "Sacf.C80_binary64"
   ],
   "note": ""
  },
  {
   "property": "C81",
   "status": "proved",
   "theorems": [
    "Sacf.C81_default_alpha",
    "Sacf.C81_binary64",
    "Sacf.C81_default_alpha_gaussian",
    "Sacf.C81_binary64_gaussian"
   ],
   "note": ""
  },
  {
   "property": "C82",
   "status": "proved",
   "theorems": [
    "Sacf.C82_binary64_any_weight",
    "Sacf.C82_peak",
    "Sacf.C82_binary64"
   ],
   "note": ""
  },
  {
   "property": "C83",
   "status": "proved",
   "theorems": [
    "Sacf.C83_binary64_any_weight",
    "Sacf.C83_trend",
    "Sacf.C83_binary64"
   ],
   "note": ""
  },
  {
   "property": "C84",
   "status": "proved",
   "theorems": [
    "Sacf.C84_binary64_any_weight",
    "Sacf.C84_outlier",
    "Sacf.C84_binary64"
   ],
   "note": ""
  },
  {
   "property": "C85",
   "status": "proved",
   "theorems": [
    "Sacf.C85_binary64_gaussian",
    "Sacf.C85_binary64_any_weight",
    "Sacf.C85_permutations",
    "Sacf.C85_regular",
    "Sacf.C85_binary64",
    "Sacf.C85_binary64_regular"
   ],
   "note": ""
  },
  {
   "property": "C86",
   "status": "partial",
   "theorems": [
    "Sacf.C86_slots",
    "Sacf.C86_as_fresh",
    "Sacf.C86_one_use_partial",
    "Sacf.C86_sequence_partial",
    "Sacf.C86_alpha_scan",
    "Sacf.C86_false"
   ],
   "note": "False of the code (C86_false: after a computation over two lags the default range writes outside the buffers, because cleanCorrelationData cuts them to the lags used). C86_sequence_partial: a sequence of ranges works if and only if no range has more lags than the one before, the first no more than there are slots, and then every result is that of a new call; C86_one_use_partial the same for one range after any history; C86_slots: the slots never grow; C86_as_fresh: any computation that returns (any selection, weight and arithmetic) gives what a new call gives; C86_alpha_scan: scanning alpha always works."
  },
  {
   "property": "C87",
   "status": "proved",
   "theorems": [
    "Sacf.C87_missing_samples",
    "Sacf.C87_binary64"
   ],
   "note": ""
  },
  {
   "property": "C88",
   "status": "proved",
   "theorems": [
    "Sacf.C88_nearly_regular",
    "Sacf.C88_binary64"
   ],
   "note": ""
  },
  {
   "property": "C89",
   "status": "proved",
   "theorems": [
    "Sacf.C89_below_half",
    "Sacf.C89_above_half",
    "Sacf.C89_binary64_below",
    "Sacf.C89_binary64_above"
   ],
   "note": ""
  },
  {
   "property": "C90",
   "status": "proved",
   "theorems": [
    "Sacf.C90_binary64_any_weight",
    "Sacf.C90_second_moment",
    "Sacf.C90_significance",
    "Sacf.C90_binary64"
   ],
   "note": ""
  },
  {
   "property": "C91",
   "status": "proved",
   "theorems": [
    "Sacf.C91_outcome",
    "Sacf.C91_ends",
    "Sacf.C91_undefined",
    "Sacf.C91_own_correlator"
   ],
   "note": ""
  },
  {
   "property": "C92",
   "status": "partial",
   "theorems": [
    "Sacf.C92_false",
    "Sacf.C92_false_settings",
    "Sacf.C92_columns_partial",
    "Sacf.C92_exceptions",
    "Sacf.C92_same_names",
    "Sacf.C92_ends",
    "Sacf.C92_defined",
    "Sacf.C92_consistent"
   ],
   "note": "False of the code: C92_false (columns of two calls mixed), C92_false_settings (undefined behaviour although every order of the calls is fine). C92_same_names is the full property for calls with the same names; C92_columns_partial, C92_exceptions, C92_ends and C92_defined what holds with different names; C92_consistent holds of any calls."
  },
  {
   "property": "C93",
   "status": "proved",
   "theorems": [
    "Sacf.C93_retry",
    "Sacf.C93_atomic",
    "Sacf.C93_contents"
   ],
   "note": ""
  },
  {
   "property": "C94",
   "status": "proved",
   "theorems": [
    "Sacf.C94_sum",
    "Sacf.C94_parallelogram",
    "Sacf.C94_binary64",
    "Sacf.C94_binary64_irregular",
    "Sacf.C94_binary64_parallelogram"
   ],
   "note": ""
  },
  {
   "property": "C95",
   "status": "proved",
   "theorems": [
    "Sacf.C95_padding",
    "Sacf.C95_binary64",
    "Sacf.C95_binary64_any_weight"
   ],
   "note": ""
  },
  {
   "property": "C96",
   "status": "proved",
   "theorems": [
    "Sacf.C96_structure",
    "Sacf.C96_binary64",
    "Sacf.C96_binary64_any_weight"
   ],
   "note": ""
  },
  {
   "property": "C97",
   "status": "proved",
   "theorems": [
    "Sacf.C97_half",
    "Sacf.C97_attained",
    "Sacf.C97_bound",
    "Sacf.C97_binary64",
    "Sacf.C97_binary64_any_weight"
   ],
   "note": ""
  },
  {
   "property": "C98",
   "status": "partial",
   "theorems": [
    "Sacf.C98_moment_partial",
    "Sacf.C98_settled_partial",
    "Sacf.C98_false"
   ],
   "note": "False of the code (C98_false: nine lags, seven columns). C98_moment_partial: what one read finds at any moment; C98_settled_partial: two reads fit together once one of the calls has returned."
  },
  {
   "property": "C99",
   "status": "partial",
   "theorems": [
    "Sacf.C99_weights_partial",
    "Sacf.C99_nan_partial",
    "Sacf.C99_zero_lag_partial",
    "Sacf.C99_binary64_nan_partial",
    "Sacf.C99_binary64_weights_partial",
    "Sacf.C99_false"
   ],
   "note": "False of the code (C99_false: alpha = 2^-538 gives NaN at lag zero). C99_weights_partial, C99_binary64_weights_partial: the Gaussian weights as long as 2*alpha*alpha does not underflow to zero or overflow; C99_nan_partial, C99_zero_lag_partial, C99_binary64_nan_partial: NaN whenever it underflows (or alpha is zero). The fractional weights: C32_rounded."
  },
  {
   "property": "C100",
   "status": "proved",
   "theorems": [
    "Sacf.C100_unit",
    "Sacf.C100_fractional",
    "Sacf.C100_outside"
   ],
   "note": ""
  },
  {
   "property": "C101",
   "status": "proved",
   "theorems": [
    "Sacf.C101_signal",
    "Sacf.C101_period",
    "Sacf.C101_binary64",
    "Sacf.C101_binary64_period"
   ],
   "note": ""
  },
  {
   "property": "C102",
   "status": "proved",
   "theorems": [
    "Sacf.C102_binary64_any_weight",
    "Sacf.C102_sinusoid",
    "Sacf.C102_whole_periods",
    "Sacf.C102_binary64"
   ],
   "note": ""
  },
  {
   "property": "C103",
   "status": "proved",
   "theorems": [
    "Sacf.C103_coinciding",
    "Sacf.C103_binary64",
    "Sacf.C103_negative_lags"
   ],
   "note": ""
  },
  {
   "property": "C104",
   "status": "proved",
   "theorems": [
    "Sacf.C104_binary64_any_weight",
    "Sacf.C104_two_levels",
    "Sacf.C104_regular",
    "Sacf.C104_transit",
    "Sacf.C104_step",
    "Sacf.C104_binary64",
    "Sacf.C104_binary64_regular",
    "Sacf.C104_binary64_transit",
    "Sacf.C104_binary64_step"
   ],
   "note": ""
  },
  {
   "property": "C105",
   "status": "proved",
   "theorems": [
    "Sacf.C105_argument",
    "Sacf.C105_first_item",
    "Sacf.C105_row",
    "Sacf.C105_item",
    "Sacf.C105_number"
   ],
   "note": ""
  },
  {
   "property": "C106",
   "status": "partial",
   "theorems": [
    "Sacf.C106_by_label_partial",
    "Sacf.C106_missing",
    "Sacf.C106_dropped",
    "Sacf.C106_false"
   ],
   "note": "False of the code (C106_false: a table sorted by time). C106_by_label_partial: what is built for labels 0, ..., n-1 in any order, which is the property if they are in order; C106_missing, C106_dropped: the exception otherwise."
  },
  {
   "property": "C107",
   "status": "proved",
   "theorems": [
    "Sacf.C107_spectrum",
    "Sacf.C107_fourier",
    "Sacf.C107_binary64_any_weight",
    "Sacf.C107_binary64"
   ],
   "note": ""
  },
  {
   "property": "C108",
   "status": "proved",
   "theorems": [
    "Sacf.C108_history",
    "Sacf.C108_same_outcome",
    "Sacf.C108_autocorrelation"
   ],
   "note": ""
  },
  {
   "property": "C109",
   "status": "proved",
   "theorems": [
    "Sacf.C109_fft",
    "Sacf.C109_unpadded",
    "Sacf.C109_binary64_any_weight",
    "Sacf.C109_binary64"
   ],
   "note": ""
  },
  {
   "property": "C110",
   "status": "proved",
   "theorems": [
    "Sacf.C110_same_outcome",
    "Sacf.C110_calculate",
    "Sacf.C110_autocorrelation"
   ],
   "note": ""
  },
  {
   "property": "C111",
   "status": "proved",
   "theorems": [
    "Sacf.C111_new",
    "Sacf.C111_quadratic"
   ],
   "note": ""
  },
  {
   "property": "C112",
   "status": "partial",
   "theorems": [
    "Sacf.C112_left_out_partial",
    "Sacf.C112_false"
   ],
   "note": "False of the code (C112_false). C112_left_out_partial: the object built is that of the complete rows, for every table of decimal numbers and every word that starts no number."
  },
  {
   "property": "C113",
   "status": "partial",
   "theorems": [
    "Sacf.C113_empty_field_partial",
    "Sacf.C113_shifted_partial",
    "Sacf.C113_false"
   ],
   "note": "False of the code (C113_false). C113_empty_field_partial: an empty field anywhere in a file can be left out; C113_shifted_partial: the errors are taken for the values."
  },
  {
   "property": "C114",
   "status": "proved",
   "theorems": [
    "Sacf.C114_words",
    "Sacf.C114_line_endings"
   ],
   "note": ""
  },
  {
   "property": "C115",
   "status": "partial",
   "theorems": [
    "Sacf.C115_dates_partial",
    "Sacf.C115_decimal_comma_partial",
    "Sacf.C115_first_word_partial",
    "Sacf.C115_false"
   ],
   "note": "False of the code (C115_false). C115_dates_partial, C115_decimal_comma_partial: what is built from every table of such rows; C115_first_word_partial: rows that are left out, as the property wants."
  },
  {
   "property": "C116",
   "status": "proved",
   "theorems": [
    "Sacf.C116_normalised",
    "Sacf.C116_defaults",
    "Sacf.C116_epoch"
   ],
   "note": ""
  },
  {
   "property": "C117",
   "status": "proved",
   "theorems": [
    "Sacf.C117_count",
    "Sacf.C117_regular",
    "Sacf.C117_unbounded",
    "Sacf.C117_ticks",
    "Sacf.C117_binary64"
   ],
   "note": ""
  },
  {
   "property": "C118",
   "status": "proved",
   "theorems": [
    "Sacf.C118_same_outcome",
    "Sacf.C118_fast",
    "Sacf.C118_natural",
    "Sacf.C118_drivers",
    "Sacf.C118_selection"
   ],
   "note": ""
  },
  {
   "property": "C119",
   "status": "proved",
   "theorems": [
    "Sacf.C119_natural",
    "Sacf.C119_fast",
    "Sacf.C119_exact",
    "Sacf.C119_ends",
    "Sacf.C119_resolution",
    "Sacf.C119_infinite",
    "Sacf.C119_middle"
   ],
   "note": ""
  },
  {
   "property": "C120",
   "status": "proved",
   "theorems": [
    "Sacf.C120_increasing",
    "Sacf.C120_out_of_order",
    "Sacf.C120_undefined",
    "Sacf.C120_three_lags",
    "Sacf.C120_binary64"
   ],
   "note": ""
  },
  {
   "property": "C121",
   "status": "proved",
   "theorems": [
    "Sacf.C121_bound",
    "Sacf.C121_attained",
    "Sacf.C121_binary64"
   ],
   "note": ""
  },
  {
   "property": "C122",
   "status": "partial",
   "theorems": [
    "Sacf.C122_middle_partial",
    "Sacf.C122_symmetric",
    "Sacf.C122_false",
    "Sacf.C122_binary64_partial",
    "Sacf.C122_near_partial"
   ],
   "note": "False of the code in binary64 (C122_false). C122_middle_partial: in exact arithmetic for all increasing times; C122_binary64_partial: in binary64 for multiples of a power of two. C122_near_partial: for all doubles with span at most 2^20 gaps, zero is at most one place beside the middle."
  },
  {
   "property": "C123",
   "status": "proved",
   "theorems": [
    "Sacf.C123_same",
    "Sacf.C123_iff"
   ],
   "note": ""
  },
  {
   "property": "C124",
   "status": "proved",
   "theorems": [
    "Sacf.C124_even",
    "Sacf.C124_split",
    "Sacf.C124_binary64",
    "Sacf.C124_decimal"
   ],
   "note": ""
  }
 ]
}
