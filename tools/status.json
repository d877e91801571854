{
 "C02": {
  "status": "partial",
  "note": "The property is false of the code; C02_false refutes it with a witness, C02_rejection_partial and C02_surplus_ignored_partial say what holds."
 },
 "C08": {
  "status": "partial",
  "note": "False of the code (C08_false); C08_ub_iff_partial is the exact condition."
 },
 "C09": {
  "status": "partial",
  "note": "False of the code (C09_false); C09_errors_iff_partial is the exact condition."
 },
 "C21": {
  "status": "partial",
  "note": "False of the code (C21_false, C21_false_range); C21_safe_iff_partial is the exact condition in any arithmetic, C21_default_range_partial the positive part in exact arithmetic (C46 in binary64)."
 },
 "C38": {
  "status": "partial",
  "note": "Holds on the C++ path, fails on the Python path; both proved, for every arithmetic."
 },
 "C43": {
  "status": "partial",
  "note": "False of the code: proved that the read always happens, and what it finds."
 },
 "C16": {
  "status": "partial",
  "note": "False of the code (C16_false; C16_repeated_time for every sorted series with a repeated time; C16_rounded in every rounding, also for times that only coincide after rounding); C16_increasing_partial and C16_single_partial give the exact behaviour for strictly increasing times (exact arithmetic)."
 },
 "C18": {
  "status": "partial",
  "note": "False at two corners (C18_false_missing, C18_false_outside); C18_zero_once_partial is what holds, C18_default_partial covers every default call; C18_rounded_partial and C18_default_rounded_partial are the same for every rounding (binary64)."
 },
 "C20": {
  "status": "partial",
  "note": "False of the code when the unqualified abs resolves to int abs(int) (C20_false, witness). What is returned then: C20_formula_partial in general, C20_below_one_unit_partial for times less than one unit apart, C20_overflow for distances of 2^31. C20_integer_partial, C20_integer_rounded_partial, C20_integer_binary64_partial: for integer times and lags both overloads give identical results."
 },
 "C26": {
  "status": "partial",
  "note": "False of the code as stated; C26_ratio_partial is the exact law relating the returned value to the published one in exact arithmetic, C26_zero_lag_partial its value at lag 0. C26_binary64_partial, C26_zero_binary64_partial: the same in binary64 up to M 2^-53 times the condition number, for values not representable as float. C26_binary64_gaussian_partial, C26_zero_binary64_gaussian_partial: the Gaussian weight, against the real exponential."
 },
 "C31": {
  "status": "partial",
  "note": "False of the code (C31_false); C31_surplus_partial gives the exact asymmetry on a regular grid. C31_error_partial: the same in binary64, up to the rounding error bound. C31_binary64_gaussian_partial: the Gaussian weight."
 },
 "C33": {
  "status": "partial",
  "note": "The bound 1 is false in general (C33_false); C33_bound_partial is the general bound, C33_regular_partial the bound 1 on regular grids at non-negative lags. C33_error_partial carries the bound on regular grids to binary64. C33_error_bound_partial: the bound for any times and lags in binary64. C33_gaps_partial and C33_gaps_binary64_partial: the bound from the gaps between the times, for any non-negative lag; C33_regular_any_lag_partial: the bound 1 on regular grids at non-negative lags that need not be whole. C33_binary64_gaussian_partial: the bound for the Gaussian weight in binary64."
 },
 "C34": {
  "status": "partial",
  "note": "C34_constant_partial: in exact arithmetic with float32-representable values; C34_constant_narrowed_partial says what happens when the constant is not representable in float32. False in binary64 (C34_false_binary64): the computed mean of a constant row may differ from the constant. C34_rounded_partial: NaN in any rounding if the constant is a float and the computed mean is the constant; C34_binary64_partial: that is so in binary64 for c = n 2^e with |n| < 2^24 and M |n| <= 2^53, e.g. every integer below 2^22."
 },
 "C35": {
  "status": "partial",
  "note": "False of the code: C35_poisoned, C35_nonpositive_lags. C35_formula_partial and C35_nan_iff_partial: which lags are NaN, exactly, and the value at all the others (exact arithmetic). C35_rounded_poisoned, C35_rounded_nonpositive: NaN for any rounding; C35_error_partial, C35_any_partial, C35_binary64_partial, C35_any_binary64_partial: the same characterisation in rounded arithmetic and binary64, with error bounds. C35_binary64_gaussian_partial: the Gaussian weight, against the real exponential."
 },
 "C36": {
  "status": "partial",
  "note": "False of the code (C36_false). C36_raises_iff_partial: exactly when the call raises; C36_formula_partial, C36_beyond_partial, C36_negative_lag_partial, C36_zero_lag_partial, C36_regular_partial: exactly what it returns otherwise (exact arithmetic, floating-point abs). C36_rounded_raises_iff_partial, C36_rounded_value_partial, C36_rounded_self_partial: the same for any rounding; C36_error_partial and C36_binary64_*: error bounds, and exactly when the default call raises. C36_binary64_gaussian_partial, C36_binary64_negative_gaussian_partial, C36_binary64_zero_gaussian_partial: the Gaussian weight, against the real exponential."
 },
 "C29": {
  "status": "proved",
  "note": "With floating-point abs; if the unqualified abs resolves to int abs(int) the property is false (C29_false_intAbs). C29_rounded and C29_binary64: bit-for-bit in floating point for times on exact grids; C29_false_binary64: not for decimal factors."
 },
 "C14": {
  "status": "partial",
  "note": "False of the code (C14_false). C14_meaning describes what is built from every file; C14_three_columns_partial and C14_no_errors_partial are the cases in which the property holds; C14_errors_ub_iff_partial is the exact condition for the out-of-bounds read."
 },
 "C63": {
  "status": "partial",
  "note": "False of the code (C63_false: out-of-bounds read); C63_column_partial says what is built in each case."
 },
 "C28": {
  "status": "proved",
  "note": "In exact arithmetic for every shift (C28_shift), law-free in terms of the normalised times; in floating point for times on exact grids (C29_rounded, C29_binary64 with p = 1), false otherwise (C28_false_binary64)."
 },
 "C78": {
  "status": "partial",
  "note": "False of the code (C78_false: for every eta in (0, 1/2], two inputs eta apart with correlations 1/4 and 0). C78_bound_partial: the bound holds when no shifted time is within 2 eta + |k - k'| of the last time and the matched sample is closer than any other by more than 4 eta + 2 |k - k'|; C78_gaussian_partial the same for the Gaussian weight, C78_binary64_partial in binary64. C78_binary64_gaussian_partial: the Gaussian weight in binary64."
 },
 "C86": {
  "status": "partial",
  "note": "False of the code (C86_false: after a computation over two lags the default range writes outside the buffers, because cleanCorrelationData cuts them to the lags used). C86_sequence_partial: a sequence of ranges works if and only if no range has more lags than the one before, the first no more than there are slots, and then every result is that of a new call; C86_one_use_partial the same for one range after any history; C86_slots: the slots never grow; C86_as_fresh: any computation that returns (any selection, weight and arithmetic) gives what a new call gives; C86_alpha_scan: scanning alpha always works."
 },
 "C92": {
  "status": "partial",
  "note": "False of the code: C92_false (columns of two calls mixed), C92_false_settings (undefined behaviour although every order of the calls is fine). C92_same_names is the full property for calls with the same names; C92_columns_partial, C92_exceptions, C92_ends and C92_defined what holds with different names; C92_consistent holds of any calls."
 },
 "C98": {
  "status": "partial",
  "note": "False of the code (C98_false: nine lags, seven columns). C98_moment_partial: what one read finds at any moment; C98_settled_partial: two reads fit together once one of the calls has returned."
 },
 "C99": {
  "status": "partial",
  "note": "False of the code (C99_false: alpha = 2^-538 gives NaN at lag zero). C99_weights_partial, C99_binary64_weights_partial: the Gaussian weights as long as 2*alpha*alpha does not underflow to zero or overflow; C99_nan_partial, C99_zero_lag_partial, C99_binary64_nan_partial: NaN whenever it underflows (or alpha is zero). The fractional weights: C32_rounded."
 },
 "C106": {
  "status": "partial",
  "note": "False of the code (C106_false: a table sorted by time). C106_by_label_partial: what is built for labels 0, ..., n-1 in any order, which is the property if they are in order; C106_missing, C106_dropped: the exception otherwise."
 },
 "C112": {
  "status": "partial",
  "note": "False of the code (C112_false). C112_left_out_partial: the object built is that of the complete rows, for every table of decimal numbers and every word that starts no number."
 },
 "C113": {
  "status": "partial",
  "note": "False of the code (C113_false). C113_empty_field_partial: an empty field anywhere in a file can be left out; C113_shifted_partial: the errors are taken for the values."
 },
 "C115": {
  "status": "partial",
  "note": "False of the code (C115_false). C115_dates_partial, C115_decimal_comma_partial: what is built from every table of such rows; C115_first_word_partial: rows that are left out, as the property wants."
 },
 "C122": {
  "status": "partial",
  "note": "False of the code in binary64 (C122_false). C122_middle_partial: in exact arithmetic for all increasing times; C122_binary64_partial: in binary64 for multiples of a power of two. C122_near_partial: for all doubles with span at most 2^20 gaps, zero is at most one place beside the middle."
 }
}