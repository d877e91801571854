{"id": "C01", "title": "Constructor acceptance is exactly the documented size test", "statement": "DataStructure(timeseries, values[, errors]) with a flat list of values raises EmptyDataStructureException exactly when the time list or the value list is empty; otherwise it raises BadDataInputException exactly when the number of values is not a multiple of the number of timestamps; otherwise it succeeds with N_datasets = 1 and M_datapoints = len(timeseries). It never does anything else (no out-of-bounds access).", "quantifier": "all time lists, value lists and error lists of any length, with any (also NaN/inf) entries", "why_tests_cant": "the outcome depends on two unbounded lengths and their remainder; the suite tries five fixed lists", "anchors": ["sacf/datastructure/DataStructure.cpp:setUp", "sacf/datastructure/DataStructure.cpp:DataStructure(t,data)", "sacf/datastructure/DataStructure.cpp:DataStructure(t,data,err)"]}
{"id": "C02", "title": "Mismatched lengths are rejected", "statement": "A flat value list whose length differs from the time list's length never yields a DataStructure. (False of the code: a value list that is a proper multiple of the time list is silently accepted and its tail ignored. What holds: a shorter value list is always rejected, and for an accepted list every result depends only on the first M_datapoints values.)", "quantifier": "all pairs of list lengths", "why_tests_cant": "the failing sizes are an infinite family (every proper multiple) that the two hand-picked mismatches in the suite miss", "anchors": ["sacf/datastructure/DataStructure.cpp:setUp", "sacf/datastructure/DataStructure.cpp:setDataMean", "sacf/datastructure/DataStructure.cpp:data_2d"]}
{"id": "C03", "title": "What was put in comes back out", "statement": "After construction from a time list and a rectangular table of values (and errors), timeseries() returns the time list, data() the table row by row, errors() the error table, or [] when none was given; the flat form behaves as the one-row table.", "quantifier": "all rectangular tables: any number of rows and columns, any entries", "why_tests_cant": "index arithmetic i + j*M over a flattened buffer has to be right for every (rows, columns) shape", "anchors": ["sacf/datastructure/DataStructure.cpp:getVectorIndex", "sacf/datastructure/DataStructure.cpp:data_2d", "sacf/datastructure/DataStructure.cpp:err_2d", "sacf/datastructure/DataStructure.cpp:timeseries", "sacf/datastructure/datastructure_bindings.cpp"]}
{"id": "C04", "title": "Normalised times start at zero and keep every difference", "statement": "normalised_timeseries() has the length of timeseries(), starts with 0, and every pairwise difference is that of timeseries(); in particular it is increasing when the input is, and shifting all input times by a constant does not change it.", "quantifier": "all time lists and all shifts, in exact arithmetic", "why_tests_cant": "universal over lists and shifts", "anchors": ["sacf/datastructure/DataStructure.cpp:calcNormt"]}
{"id": "C05", "title": "Means ignore NaN and normalised data is centred", "statement": "mean_data[j] is the arithmetic mean of the non-NaN values of row j; normalised_data()[j] is row j minus that mean, with NaN exactly where the input has NaN, and its non-NaN entries sum to zero. In floating point the mean and the normalised values are this up to a stated multiple of the rounding unit.", "quantifier": "all tables with any pattern of NaN entries in which the row has at least one number, in exact arithmetic; in floating point up to the stated error, any pattern of NaN entries too", "why_tests_cant": "any subset of positions may be NaN: exponentially many patterns", "anchors": ["sacf/datastructure/DataStructure.cpp:setDataMean", "sacf/datastructure/DataStructure.cpp:calcNormData"]}
{"id": "C06", "title": "median_time is a median of the normalised times", "statement": "For an increasing time list, at least half of the normalised times are <= median_time and at least half are >= it; it is 0 <= median_time <= max-min, positive as soon as there are two distinct increasing times, and unaffected by shifting the time origin.", "quantifier": "all increasing time lists, even and odd length", "why_tests_cant": "parity/index arithmetic for every length", "anchors": ["sacf/datastructure/DataStructure.cpp:settMedian"]}
{"id": "C07", "title": "max_time is the latest time", "statement": "For an increasing time list max_time is an element of the list and no element exceeds it. (For an unordered list it is just the last element.)", "quantifier": "all time lists", "why_tests_cant": "universal over lists", "anchors": ["sacf/datastructure/DataStructure.cpp:settMax"]}
{"id": "C08", "title": "Table construction is memory safe", "statement": "Constructing from a list of rows never reads outside the data. (False of the code: only the total count is checked, so e.g. two rows [1,2] and [] over two timestamps reads out of bounds. Exact condition: given the size test passes, construction is safe iff rows*M <= total number of values; rectangular tables are safe.)", "quantifier": "all row lists, including ragged ones", "why_tests_cant": "UB is not observable by a test and the ragged shapes are infinite", "anchors": ["sacf/datastructure/DataStructure.cpp:DataStructure(t,data2d)", "sacf/datastructure/DataStructure.cpp:setUp", "sacf/datastructure/DataStructure.cpp:setDataMean"]}
{"id": "C09", "title": "errors() is memory safe", "statement": "errors() never reads outside the stored errors. (False: the error list's length is never checked. Exact condition: errors() is defined iff the stored list is empty or has at least N_datasets*M_datapoints entries.)", "quantifier": "all error lists of any length", "why_tests_cant": "UB; infinite family of lengths", "anchors": ["sacf/datastructure/DataStructure.cpp:err_2d", "sacf/datastructure/DataStructure.cpp:DataStructure(t,data,err)"]}
{"id": "C10", "title": "File round trip", "statement": "Reading a file whose lines are 'time sep value' (or 'time sep value sep error' on every line), written in decimal or scientific notation, gives exactly the DataStructure built in memory from the corresponding numbers.", "quantifier": "all tables of any number of lines, any decimal numerals, any of the separators comma / tab / blank in any amount", "why_tests_cant": "lexer + line reader over unbounded character sequences", "anchors": ["sacf/datastructure/DataStructure.cpp:DataStructure(filename)"]}
{"id": "C11", "title": "Comment, blank and header lines have no effect", "statement": "Inserting anywhere in a file a line that starts with '#', is empty or blank, or whose first field is not numeric, leaves the resulting DataStructure (or raised exception) unchanged.", "quantifier": "all files, all insertion points, all such lines", "why_tests_cant": "universal over files and positions", "anchors": ["sacf/datastructure/DataStructure.cpp:DataStructure(filename)"]}
{"id": "C12", "title": "Separators are interchangeable", "statement": "Replacing commas by blanks (or any of blank, tab, CR by one another) anywhere in a non-comment line does not change the outcome of reading the file.", "quantifier": "all files and all replacement positions", "why_tests_cant": "universal", "anchors": ["sacf/datastructure/DataStructure.cpp:DataStructure(filename)"]}
{"id": "C13", "title": "Unreadable and empty files are reported by the right exception", "statement": "A file that cannot be opened raises BadDataFileReadException; a file that opens but has no line starting with two numerals raises EmptyDataStructureException; any other file yields a DataStructure (never BadDataInput, never UB).", "quantifier": "all files", "why_tests_cant": "universal over character sequences", "anchors": ["sacf/datastructure/DataStructure.cpp:DataStructure(filename)"]}
{"id": "C14", "title": "Errors read from a file line up with the data", "statement": "If errors() of a DataStructure read from a file is non-empty then there is exactly one error per data point and entry i belongs to data point i. (False of the code: a missing or unparsable error (such as the NaN in the repo's own test file) shifts later errors and makes errors() read out of bounds; extra columns are appended as errors; and in a file without errors a later five-column line silently adds a data point. Holds when every data line has exactly three numerals, or exactly two on every line.)", "quantifier": "all files", "why_tests_cant": "needs all mixtures of 2-, 3- and n-column lines", "anchors": ["sacf/datastructure/DataStructure.cpp:DataStructure(filename)", "sacf/datastructure/DataStructure.cpp:err_2d", "tests/tab_delim_with_titles_with_err.txt"]}
{"id": "C15", "title": "Default lag parameters", "statement": "A new Correlator has max_lag = last time minus first time, min_lag = -max_lag, alpha = median_time, and for an increasing time list lag_resolution is the smallest distance between any two timestamps. autocorrelation(arg=None) keeps each default and a given argument replaces exactly that parameter; in particular passing max_lag alone leaves min_lag at minus the default max_lag.", "quantifier": "all time lists with at least two points, all argument combinations", "why_tests_cant": "minimum over all pairs of an unbounded list", "anchors": ["sacf/correlator/Correlator.cpp:Correlator(ds)", "sacf/correlator/Correlator.cpp:findMinDiff", "sacf/sacf.py:set_up_correlation"]}
{"id": "C16", "title": "Creating a Correlator is safe", "statement": "Correlator(ds) never has undefined behaviour. (False: with a repeated timestamp the lag count is an int conversion of infinity/NaN. For strictly increasing times with span/min-gap in int range it is safe and allocates floor(2*span/gap)+3 lag slots.)", "quantifier": "all data structures", "why_tests_cant": "UB; quantifies over all timestamp lists", "anchors": ["sacf/correlator/Correlator.cpp:Correlator(ds)"]}
{"id": "C17", "title": "The lag grid is exactly min, min+res, ... plus zero", "statement": "lag_timeseries is strictly increasing and its members are exactly the numbers min_lag + n*lag_resolution (n = 0,1,2,...) not exceeding max_lag, together with 0 if some such number is positive.", "quantifier": "all min_lag, max_lag and positive lag_resolution, exact arithmetic", "why_tests_cant": "unbounded number of steps, real parameters", "anchors": ["sacf/correlator/Correlator.cpp:calculateStandardCorrelation", "sacf/sacf.py:find_correlation.lag_generator"]}
{"id": "C18", "title": "Zero lag is reported once when the range straddles zero", "statement": "If min_lag <= 0 <= max_lag then 0 occurs exactly once among the lags, and no lag lies outside [min_lag, max_lag]. (False at two corners: no grid point lands in [0, max_lag] -> zero is missing; min_lag > 0 -> a zero lag below min_lag is emitted. Holds when a grid point lies in [0,max_lag] and min_lag <= 0; always at most once.)", "quantifier": "all lag parameters", "why_tests_cant": "corner cases depend on arithmetic relations of three reals", "anchors": ["sacf/correlator/Correlator.cpp:calculateStandardCorrelation", "sacf/sacf.py:find_correlation.lag_generator"]}
{"id": "C19", "title": "Natural selection picks the nearest sample", "statement": "naturalSelectionFunctionIdx gives, for exactly the samples i (in order) with t_i + lag not beyond the last time, the index of the sample nearest in time to t_i + lag, the later one on a tie.", "quantifier": "all increasing time lists and all lags (positive, negative, zero), exact arithmetic; in rounded arithmetic nearest w.r.t. the computed differences, also with repeated times", "why_tests_cant": "binary search correctness for all lists and query points", "anchors": ["sacf/correlator/Correlator.cpp:naturalSelectionFunctionIdx"]}
{"id": "C20", "title": "Distances are not truncated to integers", "statement": "The time differences used in selection and weighting are real-valued. (Depends on which abs overload an unqualified abs(double) finds: with libstdc++ and the headers Correlator.cpp includes it is int abs(int). Then every result is the published formula with distances truncated to whole units, in the choice of the sample and in its weight; if consecutive times are less than one unit apart then for every lag above -1 alpha and the weight function have no effect and each shifted time is matched with the first sample at or after it; and a first lag of -2^31 or below, by default any span of 2^31 units, is undefined behaviour. For integer times and lags both overloads give identical results, also in binary64.)", "quantifier": "all time lists and lags", "why_tests_cant": "tests only use integer times, for which the two overloads agree", "anchors": ["sacf/correlator/Correlator.cpp:naturalSelectionFunctionIdx", "sacf/correlator/Correlator.cpp:deltaT"]}
{"id": "C21", "title": "autocorrelation() never writes outside its buffers", "statement": "No call of autocorrelation writes outside the result buffers. (False: buffers are sized from the default lag parameters; a finer lag_resolution or wider range overflows the heap. Holds for default parameters and for any range inside the default one with a resolution not finer than the default. Exact: safe iff number of lags <= allocated slots.)", "quantifier": "all data and all lag parameters", "why_tests_cant": "heap overflow is not reliably observable; parameters are real-valued", "anchors": ["sacf/correlator/Correlator.cpp:addCorrelationData", "sacf/correlator/Correlator.cpp:Correlator(ds)", "sacf/sacf.py:autocorrelation"]}
{"id": "C22", "title": "Result shape", "statement": "When autocorrelation returns, lag_timeseries and every correlation row have the same length, there is one row per dataset, and a single dataset yields a flat list.", "quantifier": "all inputs and parameters for which it returns; any arithmetic incl. IEEE doubles", "why_tests_cant": "strided copy loops for every (datasets, lags) shape", "anchors": ["sacf/correlator/Correlator.cpp:cleanCorrelationData", "sacf/correlator/Correlator.cpp:correlations", "sacf/sacf.py:autocorrelation"]}
{"id": "C23", "title": "Datasets do not influence each other", "statement": "Row j of the result for several datasets over common times equals the result of running that dataset alone; hence permuting or adding datasets permutes or adds rows.", "quantifier": "all tables, all parameters, all selection/weight functions; any arithmetic incl. IEEE doubles", "why_tests_cant": "shared flat buffers with strides; needs all shapes", "anchors": ["sacf/correlator/Correlator.cpp:findCorrelation", "sacf/correlator/Correlator.cpp:addCorrelationData", "sacf/correlator/Correlator.cpp:cleanCorrelationData"]}
{"id": "C24", "title": "The Python and the C++ drivers agree", "statement": "find_correlation(corr) with natural selection and fractional weights leaves the correlator in the same state as calculateStandardCorrelation, whenever at least one lag is processed (bit for bit, in any arithmetic).", "quantifier": "all correlator states", "why_tests_cant": "two separately written loops over unbounded lag sequences", "anchors": ["sacf/sacf.py:find_correlation", "sacf/correlator/Correlator.cpp:calculateStandardCorrelation"]}
{"id": "C25", "title": "Zero-lag correlation is one", "statement": "With natural selection and any of the weight functions, the correlation at lag 0 of a non-constant NaN-free dataset is 1, provided the values are representable as float32 (exact arithmetic). In any arithmetic with the IEEE identities it is N*(1/N). In binary64 it is 1 up to the rounding bound of C61.", "quantifier": "all increasing times, all data rows, all positive alpha", "why_tests_cant": "universal over datasets", "anchors": ["sacf/correlator/Correlator.cpp:findCorrelation", "sacf/correlator/Correlator.cpp:Correlator(ds)"]}
{"id": "C26", "title": "Normalisation uses the data as given", "statement": "The normaliser is the sum of squared deviations of the data. (False: data are narrowed to float32 first, so a value not representable in float32 makes the zero-lag correlation differ from 1. The result is always the exact-data result times sum(dev^2)/sum(dev of float32(x)^2), in binary64 up to a stated rounding error.)", "quantifier": "all data rows", "why_tests_cant": "tests use small integers, exactly representable", "anchors": ["sacf/correlator/Correlator.cpp:Correlator(ds)"]}
{"id": "C27", "title": "Scaling and shifting the values does not change the result", "statement": "Replacing every value v of a dataset by a*v+b (a != 0) leaves lags and correlations unchanged (values and images float32-representable, exact arithmetic). In binary64 the two results differ by at most the sum of their rounding bounds (C61).", "quantifier": "all datasets, all a, b, all parameters, all selection and weight functions", "why_tests_cant": "two-run (relational) property over all inputs", "anchors": ["sacf/correlator/Correlator.cpp:findCorrelation", "sacf/datastructure/DataStructure.cpp:calcNormData"]}
{"id": "C28", "title": "Shifting the time origin does not change the result", "statement": "Adding a constant to all timestamps leaves lags and correlations unchanged, for every selection and weight function and parameters (exact arithmetic). In binary64 this holds bit for bit for times on an exactly representable grid (see C29) and fails for others. For arbitrary doubles (dates counted from another day, each rounded) the values at a lag differ by at most a stated multiple of the rounding of the values and of the times, when no matching decision at that lag is closer than the rounding.", "quantifier": "all inputs, all shifts", "why_tests_cant": "two-run property", "anchors": ["sacf/datastructure/DataStructure.cpp:calcNormt"]}
{"id": "C29", "title": "Changing the time unit only rescales the lags", "statement": "Multiplying all timestamps (and any given lag parameters and alpha) by c > 0 multiplies every lag by c and leaves the correlations unchanged (exact arithmetic). In binary64, for times tau_i 2^e and (a + p tau_i) 2^e' (integers tau_i, a, p > 0, so also factors like 3 or 86400), the lags of default calls correspond and the correlations are equal bit for bit; for decimal factors like 0.1 the number of lags may change. For arbitrary doubles the same bound holds as for a shifted origin (C28).", "quantifier": "all inputs, all c > 0", "why_tests_cant": "two-run property", "anchors": ["sacf/correlator/Correlator.cpp:calculateStandardCorrelation", "sacf/correlator/Correlator.cpp:fractionWeightFunction"]}
{"id": "C30", "title": "Regular sampling gives the textbook autocorrelation", "statement": "For times t0, t0+d, ..., and a lag m*d with 0 <= m < M the correlation is sum_i (x_i-mean)(x_{i+m}-mean) / sum_i (x_i-mean)^2, whatever alpha > 0 or weight function. In binary64 up to the error bound of C61.", "quantifier": "all series lengths, all steps d > 0, all m", "why_tests_cant": "universal over lengths and lags", "anchors": ["sacf/correlator/Correlator.cpp:naturalSelectionFunctionIdx", "sacf/correlator/Correlator.cpp:findCorrelation"]}
{"id": "C31", "title": "The estimate is even in the lag", "statement": "correlation(-k) = correlation(k). (False: for negative lags samples shifted before the first time are matched with sample 0. On a regular grid the surplus is exactly sum_{i<m} w((m-i)d)(x_i-mean)(x_0-mean)/N.)", "quantifier": "all regular series and lags", "why_tests_cant": "the suite's only series has x_0 = mean, which hides the surplus", "anchors": ["sacf/correlator/Correlator.cpp:naturalSelectionFunctionIdx"]}
{"id": "C32", "title": "Weights are in (0,1], 1 only at distance 0, and decrease with distance", "statement": "For alpha > 0 and distance >= 0 each of the fractional, squared-fractional and Gaussian weights is in (0,1], equals 1 iff the distance is 0, and strictly decreases with the distance; it depends only on distance/alpha.", "quantifier": "all real distances and alpha > 0", "why_tests_cant": "continuous domain", "anchors": ["sacf/correlator/Correlator.cpp:fractionWeightFunction", "sacf/correlator/Correlator.cpp:fractionSquaredWeightFunction", "sacf/correlator/Correlator.cpp:gaussianWeightFunction"]}
{"id": "C33", "title": "Correlations are bounded", "statement": "|correlation| <= 1. (In general only |correlation|^2 <= the largest number of samples matched to one sample, which at a non-negative lag is at most the ratio, rounded up, of the largest to the smallest gap between neighbouring times; so <= 1 on a regular grid at any non-negative lag. The bound 1 is false in general.)", "quantifier": "all datasets, times and lags", "why_tests_cant": "Cauchy-Schwarz over unbounded sums", "anchors": ["sacf/correlator/Correlator.cpp:findCorrelation"]}
{"id": "C34", "title": "Constant data gives NaN, not a number", "statement": "If a dataset is constant (variance zero) every correlation of that row is NaN, and other rows are unaffected. In binary64 this holds for constants n*2^e with |n| < 2^24 and M*|n| <= 2^53 (integers below 2^22, for instance); for other constants rounding of the mean may give a number.", "quantifier": "all constants, times, parameters", "why_tests_cant": "universal", "anchors": ["sacf/correlator/Correlator.cpp:findCorrelation"]}
{"id": "C35", "title": "NaN values are ignored in the correlation", "statement": "A NaN data value is skipped. (False: the mean and normaliser skip it but findCorrelation does not, so every lag that uses the sample, in particular lag 0, is NaN.)", "quantifier": "all rows and NaN positions", "why_tests_cant": "universal over positions and lags", "anchors": ["sacf/correlator/Correlator.cpp:findCorrelation", "sacf/correlator/Correlator.cpp:Correlator(ds)"]}
{"id": "C36", "title": "Fast selection approximates natural selection", "statement": "selection_function='fast' returns and equals natural selection on regular grids. (False: it raises IndexError for every lag strictly between the last two times; for every negative lag it pairs each sample with itself, so the correlation is just the weight of |lag|; the last samples are matched to index 0; the zero-lag value omits the last sample; it never prefers the nearer earlier neighbour.)", "quantifier": "all increasing time lists and lags", "why_tests_cant": "each defect is an infinite family of lags", "anchors": ["sacf/correlator/Correlator.cpp:fastSelectionFunctionIdx"]}
{"id": "C37", "title": "Unknown function names raise KeyError", "statement": "autocorrelation with a selection_function or weight_function outside the documented names raises KeyError whenever at least one lag is due (also for the readme's weight_function='fast'), except that with fast selection a selection step that raises IndexError, as it then does with every known weight name, comes before the look-up of the weight; known names never raise KeyError.", "quantifier": "all strings, all data", "why_tests_cant": "universal over strings", "anchors": ["sacf/sacf.py:find_correlation", "sacf/sacf.py:SELECTION_FUNCTIONS", "sacf/sacf.py:WEIGHT_FUNCTIONS"]}
{"id": "C38", "title": "An empty lag range gives an empty result", "statement": "If min_lag > max_lag the result is empty. (Holds on the C++ path; the Python path (any non-default function) raises UnboundLocalError instead.)", "quantifier": "all parameters with min_lag > max_lag", "why_tests_cant": "universal", "anchors": ["sacf/sacf.py:find_correlation", "sacf/correlator/Correlator.cpp:calculateStandardCorrelation"]}
{"id": "C39", "title": "Natural selection never raises", "statement": "For any data structure whatsoever (unordered times, NaN, infinities) and any lag, natural selection performs no out-of-bounds access and raises nothing (with a floating-point abs).", "quantifier": "all time lists and lags, any arithmetic incl. IEEE doubles", "why_tests_cant": "binary search on non-sorted input", "anchors": ["sacf/correlator/Correlator.cpp:naturalSelectionFunctionIdx"]}
{"id": "C40", "title": "Recomputing gives the same result", "statement": "Calling calculateStandardCorrelation again on a correlator that already holds a result changes nothing, any number of times.", "quantifier": "all correlators and repetition counts", "why_tests_cant": "buffer has been shrunk by the first run; all shapes", "anchors": ["sacf/correlator/Correlator.cpp:calculateStandardCorrelation", "sacf/correlator/Correlator.cpp:cleanCorrelationData"]}
{"id": "C41", "title": "A correlator's buffers stay consistent over any call history", "statement": "Over every sequence of public correlator calls without clearCorrelation and with cleanCorrelationData arguments not above the current number of lags, lag_timeseries() has the number of lags, correlations() is rectangular and in bounds, and the data structure is unchanged. (After clearCorrelation, correlations() is out of bounds.)", "quantifier": "all call sequences", "why_tests_cant": "histories", "anchors": ["sacf/include/Correlator.h:clearCorrelation", "sacf/correlator/Correlator.cpp:addCorrelationData", "sacf/correlator/Correlator.cpp:cleanCorrelationData"]}
{"id": "C42", "title": "autocorrelation is repeatable", "statement": "Any sequence of autocorrelation calls (with any arguments, including failing ones) on one SACF object returns for each call what a fresh object would return.", "quantifier": "all call sequences", "why_tests_cant": "histories", "anchors": ["sacf/sacf.py:autocorrelation"]}
{"id": "C43", "title": "No read of a cleared vector", "statement": "The per-lag pipeline never reads an element of a vector beyond its size. (False: deltaT always reads shifted_timeseries after both selection functions have cleared it; the value is the shifted time only because clear() keeps storage.)", "quantifier": "all lags with a non-empty selection", "why_tests_cant": "UB invisible to tests", "anchors": ["sacf/correlator/Correlator.cpp:deltaT", "sacf/correlator/Correlator.cpp:naturalSelectionFunctionIdx"]}
{"id": "C44", "title": "A returned correlator never outlives its data", "statement": "As long as Python holds a Correlator, the DataStructure it points to is alive, whatever references are dropped in whatever order.", "quantifier": "all histories of object creation and reference dropping", "why_tests_cant": "schedules of reference drops", "anchors": ["sacf/correlator/correlator_bindings.cpp:keep_alive<1, 2>"]}
{"id": "C45", "title": "A non-positive lag_resolution never silently returns", "statement": "With lag_resolution <= 0 and min_lag <= max_lag autocorrelation cannot return a result: the lag loop runs until it writes outside its buffers.", "quantifier": "all data and all non-positive resolutions (exact and rounded arithmetic)", "why_tests_cant": "non-termination / UB", "anchors": ["sacf/correlator/Correlator.cpp:calculateStandardCorrelation"]}
{"id": "C46", "title": "Default call is memory safe in binary64", "statement": "With IEEE binary64 rounding in every step, a default autocorrelation() on increasing times stays inside its buffers as long as span/min-gap is at most 2^25, despite the accumulated rounding of the lag.", "quantifier": "all increasing binary64 time lists within the ratio bound", "why_tests_cant": "accumulated rounding error over unbounded loops", "anchors": ["sacf/correlator/Correlator.cpp:calculateStandardCorrelation", "sacf/correlator/Correlator.cpp:Correlator(ds)"]}
{"id": "C47", "title": "Result equals the published S-ACF formula", "statement": "For strictly increasing times and NaN-free data, each correlation returned by the default method is (1/sum (x_i-mean)^2) * sum over samples i with t_i+k <= t_last of w(|t_s(i) - (t_i+k)|)(x_i-mean)(x_s(i)-mean), s(i) the nearest sample.", "quantifier": "all times, data, lags and alpha (exact arithmetic, float32-representable data)", "why_tests_cant": "full functional correctness", "anchors": ["sacf/correlator/Correlator.cpp:_calculateStandardCorrelation"]}
{"id": "C48", "title": "Python overload resolution picks the right constructor", "statement": "SACF(t, v[, e]) with a flat sequence of numbers builds one dataset, with a sequence of sequences one dataset per inner sequence, whatever the numeric types of the entries; errors=None and omitted errors coincide; mixed flat/nested values and errors, missing arguments, text and bytes raise TypeError, and nothing else is accepted. (Arrays with one column, which can be read both ways: C63. Arguments that cannot be read to their end: C105, C106.)", "quantifier": "all nested Python sequences of numbers of any type", "why_tests_cant": "universal over argument shapes", "anchors": ["sacf/datastructure/datastructure_bindings.cpp", "sacf/sacf.py:SACF.__init__"]}
{"id": "C49", "title": "Every call ends", "statement": "Constructing an object, autocorrelation() and every sequence of calls on a Correlator ends (returns, raises, or hits undefined behaviour): the unbounded lag loops run at most once per lag slot, even for a resolution that is zero, negative, NaN or lost to rounding.", "quantifier": "all objects, all arguments, all call sequences, any arithmetic", "why_tests_cant": "termination of unbounded loops for all inputs", "anchors": ["sacf/correlator/Correlator.cpp:calculateStandardCorrelation", "sacf/sacf.py:lag_generator"]}
{"id": "C50", "title": "The value at a lag does not depend on the grid it is part of", "statement": "Two calls on one object with the same alpha and functions that both report lag k report the same correlation for it, whatever min_lag, max_lag and lag_resolution are.", "quantifier": "all data, all pairs of calls, any arithmetic", "why_tests_cant": "relation between all pairs of calls", "anchors": ["sacf/correlator/Correlator.cpp:_calculateStandardCorrelation"]}
{"id": "C51", "title": "Errors never influence the result", "statement": "Objects built from the same times and values with any errors, or none, give the same lags and correlations, or the same failure.", "quantifier": "all times, values and errors, any arithmetic", "why_tests_cant": "non-interference over all inputs", "anchors": ["sacf/datastructure/DataStructure.cpp:setUp", "sacf/sacf.py:autocorrelation"]}
{"id": "C52", "title": "Lags at and beyond the observed span", "statement": "For increasing times the correlation is 0 at every lag longer than the span; at the lag equal to the span it is dev(first)*dev(last)/sum dev^2; at every lag of at most minus the span all samples are paired with the first one.", "quantifier": "all increasing times, data, lags", "why_tests_cant": "holds for every series and lag", "anchors": ["sacf/correlator/Correlator.cpp:naturalSelectionFunctionIdx"]}
{"id": "C53", "title": "A value beyond the float range silences its dataset", "statement": "If one value of a dataset becomes infinite when narrowed to float (a finite double above about 3.4e38), every correlation of that dataset is 0 or NaN, in particular at lag zero.", "quantifier": "all data, parameters, functions, any rounding", "why_tests_cant": "all inputs; the failure is silent", "anchors": ["sacf/correlator/Correlator.cpp:Correlator::Correlator"]}
{"id": "C54", "title": "A single sample", "statement": "A default call (natural selection, any weight) on an object with one sample returns exactly the lag 0 and NaN for every dataset, since alpha = median time = 0.", "quantifier": "all times, values, numbers of datasets, any rounding", "why_tests_cant": "all inputs", "anchors": ["sacf/correlator/Correlator.cpp:Correlator::Correlator", "sacf/correlator/Correlator.cpp:fractionWeightFunction"]}
{"id": "C55", "title": "Zero and negative alpha", "statement": "alpha = 0 is accepted and makes the value at lag zero NaN for every weight function (with fast selection unless all times are equal); with gaussian and fractional_squared weights alpha and -alpha give identical results.", "quantifier": "all data, lags, selection functions", "why_tests_cant": "all inputs", "anchors": ["sacf/correlator/Correlator.cpp:gaussianWeightFunction", "sacf/sacf.py:set_up_correlation"]}
{"id": "C56", "title": "The order of the samples matters and is not checked", "statement": "Time stamps are neither sorted nor validated: strictly decreasing times (or, in rounded arithmetic, times whose last is computed to be before the first) are accepted, and a default call on them returns no lag at all (C++ path) or raises UnboundLocalError (Python path); shuffling samples together with their times can change the answer.", "quantifier": "all strictly decreasing times, any data and number of datasets; witness for shuffling", "why_tests_cant": "all series; the failure mode depends on the path", "anchors": ["sacf/datastructure/DataStructure.cpp:setUp", "sacf/correlator/Correlator.cpp:Correlator::Correlator", "sacf/sacf.py:find_correlation"]}
{"id": "C57", "title": "A CorrelationIterator serves one lag", "statement": "A second round of selection, deltas, weights and correlation on an iterator whose first round selected at least one sample never returns a result: indices are appended to the old ones and the next function reads out of bounds.", "quantifier": "all correlators, lags, selection and weight functions, any arithmetic", "why_tests_cant": "statement about all states of the iterator", "anchors": ["sacf/correlator/Correlator.cpp:CorrelationIterator", "sacf/correlator/Correlator.cpp:naturalSelectionFunctionIdx"]}
{"id": "C58", "title": "The size of a CorrelationIterator", "statement": "CorrelationIterator(k, n) has n zero correlations; if n is less than the number of datasets a round of calls never returns a result; if it is larger the extra entries stay 0 and the first ones are those of an iterator of the right size.", "quantifier": "all correlators, lags, functions, n, any arithmetic", "why_tests_cant": "all sizes and states", "anchors": ["sacf/correlator/Correlator.cpp:CorrelationIterator", "sacf/correlator/Correlator.cpp:findCorrelation"]}
{"id": "C59", "title": "Sign of the data", "statement": "Changing the sign of all values (also infinite and missing ones) leaves lags and correlations bit-identical.", "quantifier": "all data, times, parameters, functions, either abs, any rounding", "why_tests_cant": "bit-identity over all doubles", "anchors": ["sacf/correlator/Correlator.cpp:findCorrelation", "sacf/datastructure/DataStructure.cpp:setDataMean"]}
{"id": "C60", "title": "Times that are multiples of a power of two", "statement": "If all times are integer multiples of one power of two (integers, quarter seconds, ...) and the span is at most 2^53 units: lags, selection and distances of the double precision program equal their mathematical definitions; for M regular samples a default call returns exactly the 2M-1 multiples of the spacing, and the value at lag m >= 0 is bit for bit the textbook autocorrelation evaluated left to right. For decimal spacings such as 0.1 this fails.", "quantifier": "all such times, all non-NaN values, all numbers of datasets, any rounding with that unit exact; binary64", "why_tests_cant": "bit-exactness over all series", "anchors": ["sacf/correlator/Correlator.cpp:_calculateStandardCorrelation", "sacf/correlator/Correlator.cpp:naturalSelectionFunctionIdx", "sacf/datastructure/DataStructure.cpp:calcNormt"]}
{"id": "C61", "title": "The returned correlations are close to the exact ones", "statement": "For M samples of size at most A at increasing times on an exactly representable grid, natural selection and any of the weight functions, every returned correlation differs from the exact selective autocorrelation rho by at most 250 V k (1 + |rho|), where k = M A^2 / sum of squared deviations and V is 2^-24 (M 2^-53 if the values are representable as float). For the Gaussian weight the exact rho uses the real exponential and the library exponential is assumed accurate to 2^-53. For a default call on regularly spaced binary64 times this is 500 V k around the textbook autocorrelation. The bound covers the rounding of the mean, the weights, all sums and products, the narrowing to float and the reciprocal.", "quantifier": "all M up to 2^29, all values within the range of float, all lags of the result, provided 122 V k <= 1", "why_tests_cant": "worst-case bound over all doubles and all lengths", "anchors": ["sacf/correlator/Correlator.cpp:findCorrelation", "sacf/correlator/Correlator.cpp:Correlator(ds)", "sacf/datastructure/DataStructure.cpp:DataStructure"]}
{"id": "C62", "title": "The sign of zero never matters", "statement": "Inputs that differ only in signs of zeros (0.0 and -0.0 in times, values, errors, file contents, lag arguments or alpha) lead to the same outcome up to signs of zeros in the result: the same exception or undefined behaviour, or lags and correlations that are equal as numbers.", "quantifier": "all inputs, all five constructors, all arguments and functions, either abs, any rounding with IEEE sign rules", "why_tests_cant": "relation between pairs of inputs over all doubles", "anchors": ["sacf/correlator/Correlator.cpp:fractionWeightFunction", "sacf/correlator/Correlator.cpp:findCorrelation", "sacf/datastructure/DataStructure.cpp:DataStructure"]}
{"id": "C63", "title": "A column array is the dataset it lists", "statement": "Passing the values as a numpy array with a single column (shape (M, 1)) builds the same object as passing the flat list of its entries. (False of the code: if times and values are floats, pybind11's first pass selects the table overload, every value becomes a dataset of its own, and for M >= 2 the constructor reads out of bounds; if the times or the values are integers the flat overload is selected in the second pass.)", "quantifier": "all time lists and all columns of values", "why_tests_cant": "depends on pybind11's two-pass overload resolution; the failure is undefined behaviour", "anchors": ["sacf/datastructure/datastructure_bindings.cpp", "sacf/sacf.py:SACF.__init__", "sacf/include/pybind11/include/pybind11/pybind11.h", "sacf/include/pybind11/include/pybind11/stl.h"]}
{"id": "C64", "title": "Keyword arguments of autocorrelation are checked for type", "statement": "min_lag, max_lag, lag_resolution and alpha may each be None or a number of any type (float, int, bool, numpy scalar), and only the number matters; any other object raises TypeError, whatever the remaining arguments. return_correlator only decides whether the correlator is appended to the result.", "quantifier": "all argument values", "why_tests_cant": "universal over Python argument types", "anchors": ["sacf/sacf.py:SACF.set_up_correlation", "sacf/sacf.py:SACF.autocorrelation", "sacf/correlator/correlator_bindings.cpp"]}
{"id": "C65", "title": "A Correlator survives exceptions", "statement": "On a Correlator object, any sequence of calls with any arguments, exceptions caught by the caller, without clearCorrelation and without undefined behaviour, keeps the object consistent: correlations() is rectangular with one row per dataset and one column per entry of lag_timeseries(), and the data are unchanged. A call that raises leaves data, parameters and the number of lags as they were, and every later computation on the object has the outcome it would have had without the failed call.", "quantifier": "all sequences of calls, all argument objects, all exceptions, either abs", "why_tests_cant": "universal over call histories including failing ones", "anchors": ["sacf/sacf.py:SACF.find_correlation", "sacf/correlator/Correlator.cpp:addCorrelationData", "sacf/correlator/Correlator.cpp:cleanCorrelationData", "sacf/correlator/correlator_bindings.cpp"]}
{"id": "C66", "title": "A caller's own loop over lags gives the values of autocorrelation", "statement": "Driving the low-level calls (iterator, selection, deltaT, weights, findCorrelation, addCorrelationData, cleanCorrelationData) over any list of lags, in any order, with repetitions, from any state of the object, leaves exactly these lags, and at each the value that autocorrelation with the same functions and alpha reports at that lag. With natural selection this works if and only if there are no more lags than the correlator has slots.", "quantifier": "all lists of lags, all reachable states, all functions, all results of autocorrelation that contain one of the lags", "why_tests_cant": "relates an arbitrary client program to the driver for all inputs and histories", "anchors": ["sacf/sacf.py:SACF.find_correlation", "sacf/correlator/Correlator.cpp:addCorrelationData", "sacf/correlator/Correlator.cpp:cleanCorrelationData"]}
{"id": "C67", "title": "Contract of addCorrelationData and cleanCorrelationData", "statement": "In every reachable state: cleanCorrelationData(i) keeps the first i lags and columns if there are that many, reads outside its buffers if there are not, raises ValueError for negative i and TypeError for what is not an int; addCorrelationData(it, i) with 0 <= i < number of lags and an iterator with a correlation for every dataset replaces column i and nothing else, with any other int or a shorter iterator it accesses memory out of bounds.", "quantifier": "all reachable states, all integers, all iterators", "why_tests_cant": "the bad cases are undefined behaviour; the good ones are universal over states", "anchors": ["sacf/correlator/Correlator.cpp:addCorrelationData", "sacf/correlator/Correlator.cpp:cleanCorrelationData"]}
{"id": "C68", "title": "Function names that are not strings", "statement": "selection_function and weight_function may be given any object. One that is not a string raises KeyError (TypeError if unhashable) as soon as a lag is due – a bad selection function before a bad weight function, and fast selection may raise its IndexError first – and never has an effect on the correlator; if no lag is due, UnboundLocalError is raised.", "quantifier": "all objects as names, all data and lag arguments", "why_tests_cant": "universal over argument objects", "anchors": ["sacf/sacf.py:SACF.autocorrelation", "sacf/sacf.py:SACF.find_correlation"]}
{"id": "C69", "title": "Attributes of a Correlator", "statement": "max_lag, min_lag, lag_resolution and alpha are at all times the number last assigned, or the value at the start; failed assignments, computations and all other calls leave them. values, normalised_timeseries, N_datasets and M_datapoints are at all times those of the DataStructure.", "quantifier": "all sequences of calls with all arguments", "why_tests_cant": "universal over call histories", "anchors": ["sacf/correlator/Correlator.cpp:setMaxLag", "sacf/correlator/Correlator.cpp:getMaxLag", "sacf/correlator/correlator_bindings.cpp"]}
{"id": "C70", "title": "Arbitrary time stamps: matching and values up to rounding", "statement": "For time stamps that are arbitrary doubles in order (decimal times, Julian dates), at every reported lag the samples used are those whose shifted time is not beyond the last time, and each is matched with a nearest sample, both up to ten roundings of the time span; the reported value differs from the formula for that matching by at most a stated multiple of the rounding of the values and of the times relative to alpha. If no decision at the lag is closer than the tolerance, the formula is that of the nearest samples.", "quantifier": "all time stamps in order (repeats allowed), all values with the stated spread, fractional, fractional_squared and Gaussian weights, all reported lags; any rounding with relative error u, and binary64 (for the Gaussian weight with a library exp within 2^-53)", "why_tests_cant": "a bound over all doubles; tests compare a few computed numbers", "anchors": ["sacf/correlator/Correlator.cpp:naturalSelectionFunctionIdx", "sacf/correlator/Correlator.cpp:deltaT", "sacf/correlator/Correlator.cpp:findCorrelation", "sacf/datastructure/DataStructure.cpp:calcNormt"]}
{"id": "C71", "title": "Reported lags are the nominal ones up to drift", "statement": "The lags reported are min_lag + n lag_resolution up to n roundings, increasing, none missing before max_lag, and possibly an extra 0; for a default call on arbitrary increasing doubles they are -T + n delta (T the time span, delta the smallest gap) up to 8n+1 roundings of T.", "quantifier": "all inputs and parameters with lag_resolution > 0, any rounding with relative error u, and binary64", "why_tests_cant": "accumulated error over all doubles and any number of lags", "anchors": ["sacf/sacf.py:autocorrelation", "sacf/correlator/Correlator.cpp:Correlator", "sacf/correlator/Correlator.cpp:findMinDiff"]}
{"id": "C72", "title": "Calls on an iterator in any state", "statement": "For a CorrelationIterator in any state (used before, left by a call that raised, with vectors of any lengths): natural selection appends an index for every pending shifted time and then those a new iterator would get, and raises nothing; fast selection raises exactly when it would for a new iterator, leaving the shifted times behind, and otherwise gives the new iterator's selection except for trailing entries, which keep what they held; deltaT appends all distances, or raises IndexError at the first index that is no sample with the earlier distances appended, or reads outside the storage; findCorrelation adds the products to what the slots hold, returns iff the samples of the last dataset are within the values, raises IndexError otherwise, and leaves the iterator's vectors exactly if there are fewer slots than datasets or fewer indices than weights. Falling back from a fast selection that raised to natural selection on the same iterator selects too many samples.", "quantifier": "all data, all correlator histories, all iterator states", "why_tests_cant": "universal over iterator states, including those left by exceptions; undefined behaviour is not observable in a test", "anchors": ["sacf/correlator/Correlator.cpp:naturalSelectionFunctionIdx", "sacf/correlator/Correlator.cpp:fastSelectionFunctionIdx", "sacf/correlator/Correlator.cpp:deltaT", "sacf/correlator/Correlator.cpp:findCorrelation", "sacf/correlator/correlator_bindings.cpp"]}
{"id": "C73", "title": "Iterators do not interfere", "statement": "In any session with one Correlator and any number of CorrelationIterators, with any arguments and exceptions caught, what becomes of an iterator, and which of its calls raise, depends only on its own calls and the numbers assigned to alpha; calls on iterators leave the correlator unchanged. The protocol selection, deltaT, weights, findCorrelation on a new iterator, interleaved with anything else that leaves alpha alone, followed by addCorrelationData, writes the lag and the value that autocorrelation reports at that lag. Assigning the iterator's k before the protocol is as good as constructing it with that lag; assigning it afterwards changes only the lag that is stored.", "quantifier": "all sessions: any interleaving, any number of iterators, any arguments", "why_tests_cant": "universal over interleavings", "anchors": ["sacf/correlator/correlator_bindings.cpp", "sacf/correlator/Correlator.cpp:addCorrelationData", "sacf/correlator/Correlator.cpp:findCorrelation"]}
{"id": "C74", "title": "Reversing time", "statement": "On regularly spaced times, the series read backwards (any origin, alpha and weight function) has the same correlation at every non-negative lag: exactly in exact arithmetic, and in binary64 up to twice the error bound of C61. On irregular times this is not so (times 0, 1, 4).", "quantifier": "all regular series, all lags, all alpha and weight functions", "why_tests_cant": "an equality between two calls for all data; rounding makes a direct comparison in tests inconclusive", "anchors": ["sacf/sacf.py:autocorrelation", "sacf/correlator/Correlator.cpp:findCorrelation", "sacf/correlator/Correlator.cpp:naturalSelectionFunctionIdx"]}
{"id": "C75", "title": "Repeating signals", "statement": "At a lag at which every sample that counts is shifted onto a sample with the same value, the correlation is the counted samples' share of the sum of squares, whatever the gaps, alpha and the weight function. For a whole periods on a regular grid it is 1 - m/a at m periods. In binary64 up to the error bound of C61.", "quantifier": "all times, all data that repeat at the lag, all alpha", "why_tests_cant": "universal over signals, gaps and periods", "anchors": ["sacf/sacf.py:autocorrelation", "sacf/correlator/Correlator.cpp:findCorrelation"]}
{"id": "C76", "title": "Sum rule", "statement": "On regularly spaced times the correlations at all positive lags sum to -1/2 whatever the data (hence correlations of white noise are biased downwards); in binary64 up to M - 1 error bounds.", "quantifier": "all regular series of at least two samples that are not constant", "why_tests_cant": "universal over the data; the identity involves all lags at once", "anchors": ["sacf/sacf.py:autocorrelation", "sacf/correlator/Correlator.cpp:findCorrelation"]}
{"id": "C77", "title": "Role of alpha", "statement": "For large alpha the correlation tends to that with all weights one: it is within sqrt(B) D / alpha (fractional) or sqrt(B) (D / alpha)^2 (fractional_squared), D bounding the distances to the matched samples and B the number of times a sample is matched. For small alpha it tends to the sum over exactly coinciding pairs: within sqrt(B) alpha / eps, eps the smallest distance that is not zero (squared likewise). With the Gaussian weight the bounds are sqrt(B) D^2 / (2 alpha^2) and sqrt(B) 2 alpha^2 / eps^2. Also in binary64, for the Gaussian weight with a library exp within 2^-53, up to the error bound of C61.", "quantifier": "all data, lags and alpha > 0", "why_tests_cant": "limits and rates over all alpha", "anchors": ["sacf/correlator/Correlator.cpp:fractionWeightFunction", "sacf/correlator/Correlator.cpp:fractionSquaredWeightFunction", "sacf/correlator/Correlator.cpp:findCorrelation", "sacf/correlator/Correlator.cpp:gaussianWeightFunction"]}
{"id": "C78", "title": "Stability under jitter of the times and lags", "statement": "Moving the time stamps by at most eta and the lag by kappa changes a correlation only a little: by at most sqrt(B) (2 eta + kappa) / alpha with the fractional weights, B the number of times a sample is matched. (False of the code, which drops a pair as soon as its shifted time is beyond the last time stamp and picks the other neighbour at ties; true with these margins.)", "quantifier": "all values, times, lags and alpha", "why_tests_cant": "a statement about all small perturbations of all inputs; the failing case is an arbitrarily small one", "anchors": ["sacf/correlator/Correlator.cpp:naturalSelectionFunctionIdx", "sacf/correlator/Correlator.cpp:fractionWeightFunction", "sacf/correlator/Correlator.cpp:fractionSquaredWeightFunction", "sacf/correlator/Correlator.cpp:gaussianWeightFunction"]}
{"id": "C79", "title": "Stability under noise in the values", "statement": "If the values of two series at the same times differ by noise whose sum of squares is at most q^2 times the sum of squared deviations, q < 1, their correlations at a lag (same alpha and weights) differ by at most beta (4 q + 2 q^2) / (1 - q)^2, where no sample is matched more than beta^2 times; beta = 1 on a regular grid. In binary64 up to the error bounds of C61.", "quantifier": "all times, values, noise, lags and alpha", "why_tests_cant": "universal over all noise of a given size", "anchors": ["sacf/correlator/Correlator.cpp:findCorrelation", "sacf/correlator/Correlator.cpp:Correlator", "sacf/sacf.py:autocorrelation"]}
{"id": "C80", "title": "Positive semidefinite", "statement": "For a regular series the correlations at 0, 1, 2, ... steps form a positive semidefinite Toeplitz matrix: the sum over a and b of c_a c_b r(|a - b|) is never negative, so a spectrum computed from them is never negative. In binary64 up to the error bound of C61. Regular spacing is needed.", "quantifier": "all values, grids, known weights and coefficients c", "why_tests_cant": "universal over the values and over all coefficient vectors", "anchors": ["sacf/sacf.py:autocorrelation", "sacf/correlator/Correlator.cpp:findCorrelation"]}
{"id": "C81", "title": "The default alpha hardly weights", "statement": "If alpha is not given (it is then the median of the times counted from the first, about half the span), the weights hardly matter at non-negative lags: the correlation is within sqrt(ceil(G/g)) * G / ((M - 1) g) of the sum without weights, where the M times have gaps between g and G (with squared weights the last factor is squared, with Gaussian ones it is half of its square). In binary64 likewise up to the error bound of C61.", "quantifier": "all increasing times with gaps between g and G, all values, non-negative lags", "why_tests_cant": "a rate in the number of samples, universal over times and values", "anchors": ["sacf/datastructure/DataStructure.cpp:settMedian", "sacf/correlator/Correlator.cpp:fractionWeightFunction", "sacf/correlator/Correlator.cpp:fractionSquaredWeightFunction", "sacf/correlator/Correlator.cpp:gaussianWeightFunction"]}
{"id": "C82", "title": "The period is the highest peak", "statement": "For a regular series of a whole number a of periods of P samples, no correlation at b periods or beyond is larger in size than the one at b periods, which is 1 - b/a. In particular the largest correlation at lags of at least one period is at the period. In binary64 up to twice the error bound of C61.", "quantifier": "all periodic values, numbers of periods, b and lags of whole steps", "why_tests_cant": "compares all lags of all periodic signals", "anchors": ["sacf/sacf.py:autocorrelation", "sacf/correlator/Correlator.cpp:findCorrelation"]}
{"id": "C83", "title": "Linear trends", "statement": "For M values on a straight line (not constant) at regular times the correlation at m steps is (M - m)((M - m)^2 - 1 - 3 m^2) / (M (M^2 - 1)), whatever the slope and offset. In binary64 up to the error bound of C61.", "quantifier": "all slopes, offsets, M, m and known weights", "why_tests_cant": "closed form for all sizes and slopes", "anchors": ["sacf/sacf.py:autocorrelation", "sacf/correlator/Correlator.cpp:findCorrelation", "sacf/datastructure/DataStructure.cpp:calcNormData"]}
{"id": "C84", "title": "A single outlier", "statement": "For M values at regular times that are constant but for one sample, the correlation at m > 0 steps is ((M - m)/M - n) / (M - 1), n the number of samples m steps away from the outlier, and thus at most 2/(M - 1) in size, however large the outlier. In binary64 up to the error bound of C61.", "quantifier": "all positions and sizes of the outlier, M, m and known weights", "why_tests_cant": "closed form for all sizes and positions", "anchors": ["sacf/sacf.py:autocorrelation", "sacf/correlator/Correlator.cpp:findCorrelation", "sacf/datastructure/DataStructure.cpp:calcNormData"]}
{"id": "C85", "title": "Permutation test", "statement": "Over all M! orders of the same values (not all equal) at the same increasing times, the mean of the correlation at a lag does not depend on the values: it is the sum of the weights of the samples matched with themselves over M, minus that of the samples matched with another over M (M - 1). On a regular grid at m > 0 steps it is -(M - m)/(M (M - 1)). In binary64 up to the error bound of C61.", "quantifier": "all values, increasing times, lags of the grid, alpha > 0 and known weights", "why_tests_cant": "a mean over M! inputs, for all M, times and values", "anchors": ["sacf/sacf.py:autocorrelation", "sacf/correlator/Correlator.cpp:findCorrelation", "sacf/correlator/Correlator.cpp:naturalSelectionFunctionIdx", "sacf/datastructure/DataStructure.cpp:calcNormData"]}
{"id": "C86", "title": "One Correlator for several ranges", "statement": "One Correlator can be used for several computations: after any history of calls, setting min_lag, max_lag, lag_resolution and alpha and calling calculateStandardCorrelation leaves in lag_timeseries() and correlations() what a new call of autocorrelation with these arguments returns.", "quantifier": "all datasets, all histories of calls without clearCorrelation, all sequences of ranges and alphas", "why_tests_cant": "histories and sequences of ranges of any length; whether a computation stays inside the buffers depends on all earlier ones", "anchors": ["sacf/correlator/Correlator.cpp:calculateStandardCorrelation", "sacf/correlator/Correlator.cpp:cleanCorrelationData", "sacf/correlator/Correlator.cpp:addCorrelationData", "sacf/sacf.py:find_correlation"]}
{"id": "C87", "title": "Missing samples", "statement": "When samples are missing from a regular grid, the correlation at m grid steps is, for small alpha, the sum of the products of the deviations over the pairs of present samples that are m steps apart, divided by the variance sum: samples whose partner is missing contribute next to nothing. The difference is at most the weight at one grid step times the square root of the longest gap in steps; in binary64 plus the rounding bound.", "quantifier": "all sets of present samples, values not all equal, steps, lags of m >= 0 steps, alpha > 0 and known weights", "why_tests_cant": "all patterns of missing samples, of any length, and a bound uniform in the values", "anchors": ["sacf/sacf.py:autocorrelation", "sacf/correlator/Correlator.cpp:findCorrelation", "sacf/correlator/Correlator.cpp:naturalSelectionFunctionIdx", "sacf/correlator/Correlator.cpp:fractionWeightFunction", "sacf/datastructure/DataStructure.cpp:calcNormData"]}
{"id": "C88", "title": "Nearly regular times", "statement": "When every time is within eta of a regular grid of step delta and the lag within kappa of m steps, with 2 (2 eta + kappa) < delta, the correlation is the classical autocorrelation at m steps up to what the weight loses at the distance 2 eta + kappa, plus the last product of the sum if the last pair falls off the end of the series. In binary64 plus the rounding bound.", "quantifier": "all jitters, values not all equal, M, m < M, alpha > 0 and known weights", "why_tests_cant": "all perturbations of the times and lags within the tolerance, for all lengths", "anchors": ["sacf/sacf.py:autocorrelation", "sacf/correlator/Correlator.cpp:findCorrelation", "sacf/correlator/Correlator.cpp:naturalSelectionFunctionIdx", "sacf/correlator/Correlator.cpp:fractionWeightFunction", "sacf/datastructure/DataStructure.cpp:calcNormData"]}
{"id": "C89", "title": "Lags between grid points", "statement": "On a regular grid the correlation at the lag (m + f) delta is, for 0 < f < 1/2, the weight at f delta times the classical sum at m steps without its last product, and for 1/2 <= f < 1 the weight at (1 - f) delta times the classical sum at m + 1 steps, divided by the variance sum. In binary64 up to the rounding bound.", "quantifier": "all grids, values not all equal, m < M, 0 < f < 1, alpha > 0 and known weights", "why_tests_cant": "every real fraction of a step, every length; the jump at f = 1/2 is a single point", "anchors": ["sacf/sacf.py:autocorrelation", "sacf/correlator/Correlator.cpp:findCorrelation", "sacf/correlator/Correlator.cpp:naturalSelectionFunctionIdx", "sacf/correlator/Correlator.cpp:fractionWeightFunction", "sacf/datastructure/DataStructure.cpp:calcNormData"]}
{"id": "C90", "title": "Spread of a permutation test", "statement": "On a regular grid, over all M! orders of the same values (not all equal), the mean of the squares of the correlations at m > 0 steps is a closed expression in M, m and the sums of the squares and fourth powers of the deviations. With M >= 7 it is at most 2/M, so at most 2/(M c^2) of the orders have a correlation of c or more in absolute value; in binary64 the same for c plus the error bound of C61.", "quantifier": "all values, regular grids, m with 0 < m < M, alpha > 0, known weights and c > 0", "why_tests_cant": "a statement about M! inputs, for all M and values", "anchors": ["sacf/sacf.py:autocorrelation", "sacf/correlator/Correlator.cpp:findCorrelation", "sacf/correlator/Correlator.cpp:naturalSelectionFunctionIdx", "sacf/datastructure/DataStructure.cpp:calcNormData"]}
{"id": "C91", "title": "Several threads", "statement": "Threads that call autocorrelation do not disturb each other: with any number of threads, any arguments, shared data and any switching of the interpreter between the calls into the library, each call returns or raises what it does with nothing else going on, and the correlator it returns has the same contents. No call waits for another: it ends after a number of its own steps that depends on the call only. No schedule brings undefined behaviour that none of the calls has alone. The same for a call on a Correlator that no other thread uses.", "quantifier": "all numbers of threads, calls, argument objects, data and schedules", "why_tests_cant": "the number of schedules is exponential; a test sees a few of them, chosen by the interpreter", "anchors": ["sacf/sacf.py:autocorrelation", "sacf/sacf.py:find_correlation", "sacf/sacf.py:set_up_correlation", "sacf/correlator/correlator_bindings.cpp"]}
{"id": "C92", "title": "Several threads on one Correlator", "statement": "Threads that call find_correlation on the same Correlator come to the same results and leave the same contents behind as the calls made one after the other. (False for calls with different function names, and for calls during which the settings are changed. Proved: with the same names each call comes to what it comes to alone, and so do the contents; with different names the lags are right, each column is a column of one of the calls, exceptions are those of the call alone, every call ends within a number of its own steps, and no schedule has undefined behaviour; with any calls but clearCorrelation the buffers stay consistent.)", "quantifier": "all numbers of threads, function names, histories of the correlator before, and schedules", "why_tests_cant": "the number of schedules is exponential; the mixture of columns needs a switch at one of a few places", "anchors": ["sacf/sacf.py:find_correlation", "sacf/correlator/Correlator.cpp:addCorrelationData", "sacf/correlator/Correlator.cpp:cleanCorrelationData", "sacf/correlator/correlator_bindings.cpp"]}
{"id": "C93", "title": "Interrupted calls", "statement": "A find_correlation interrupted by Ctrl-C (or any other exception raised between two calls into the library) and then called again, any number of times, comes to what it would have come to at once. More generally, each interrupted call counts, for everything computed later and whatever is called and changed in between, as not made or as made completely. Until the next computation the table holds the results of the interrupted call up to some lag and the previous contents after it, with the buffers consistent.", "quantifier": "all datasets, histories, function names, places of interruption and later calls", "why_tests_cant": "an interruption can come between any two steps of any call of a history; a test can provoke a few of them", "anchors": ["sacf/sacf.py:find_correlation", "sacf/correlator/Correlator.cpp:addCorrelationData", "sacf/correlator/Correlator.cpp:cleanCorrelationData"]}
{"id": "C94", "title": "Sums of signals", "statement": "For two series on the same times, correlation times sum of squared deviations is additive: that of the sum of the series is the sum of the two plus what the series have in common at the lag (each sample of one with the selected sample of the other, weighted). With nothing in common at the lag and at lag 0 the correlation of the sum is the mean of the two weighted by the sums of squares. The sum and the difference of two series together have twice what the two have together. In binary64 up to the error bounds of C61.", "quantifier": "all times, values, lags and known weights (exact); all times and lags that are multiples of a power of two, values and known weights (binary64)", "why_tests_cant": "an identity between the results of three or four calls for all data", "anchors": ["sacf/sacf.py:autocorrelation", "sacf/correlator/Correlator.cpp:findCorrelation", "sacf/datastructure/DataStructure.cpp:calcNormData"]}
{"id": "C95", "title": "Padding and interleaving with the mean", "statement": "Padding a regular series with its mean, before and after, or placing it on a grid b times as fine with the mean in between, does not change the correlations at the lags of the series, and those at all other non-negative lags of the new grid are zero. In binary64 up to the error bounds of C61.", "quantifier": "all values, lengths, paddings, refinements b and known weights", "why_tests_cant": "relates the results of two calls for all paddings of all series", "anchors": ["sacf/sacf.py:autocorrelation", "sacf/correlator/Correlator.cpp:findCorrelation", "sacf/datastructure/DataStructure.cpp:calcNormData"]}
{"id": "C96", "title": "Correlation and differences", "statement": "At m steps of a regular grid the correlation is 1 minus half the sum of squared differences over m steps relative to the sum of squared deviations, minus half the share of the first and last m samples; so the sum of squared differences is at most 2(1 - correlation) times the sum of squares. In binary64 up to the error bound of C61.", "quantifier": "all values, M, m < M and known weights", "why_tests_cant": "an identity for all data", "anchors": ["sacf/sacf.py:autocorrelation", "sacf/correlator/Correlator.cpp:findCorrelation", "sacf/datastructure/DataStructure.cpp:calcNormData"]}
{"id": "C97", "title": "Bounds at long lags", "statement": "On a regular grid of M samples no correlation at m steps exceeds cos(pi / (floor((M-1)/m) + 2)) in size, whatever the values: cos(pi/(M+1)) at one step and 1/2 from half the series on. The bound 1/2 is attained. In binary64 up to the error bound of C61.", "quantifier": "all values, M, 0 < m < M and known weights", "why_tests_cant": "a bound over all data; the extreme data depend on M and m", "anchors": ["sacf/sacf.py:autocorrelation", "sacf/correlator/Correlator.cpp:findCorrelation", "sacf/datastructure/DataStructure.cpp:calcNormData"]}
{"id": "C98", "title": "Reading while other threads compute", "statement": "A thread that reads lag_timeseries() and then correlations() of a Correlator while other threads run find_correlation on it gets lags and correlations that belong together. (False of the code while the first call has not returned: the two reads may differ in length. What holds: at any single moment the table has one column per lag, each column up to some lag is, with its lag, one that one of the calls computes alone, and the later ones are the previous contents; once one call has returned, the lags no longer change.)", "quantifier": "all datasets, numbers of threads, function names and interleavings", "why_tests_cant": "a reader can come between any two steps of any interleaving", "anchors": ["sacf/sacf.py:find_correlation", "sacf/correlator/Correlator.cpp:lag_timeseries", "sacf/correlator/Correlator.cpp:correlations", "sacf/correlator/Correlator.cpp:cleanCorrelationData"]}
{"id": "C99", "title": "Every positive alpha is usable", "statement": "Whatever the positive alpha, in machine arithmetic the weights are numbers in [0, 1], 1 at distance 0, never increasing with the distance, so that a lag at which samples coincide has a value. (True of the two fractional weights, C32. False of the Gaussian weight: it divides by 2*alpha*alpha, which underflows to zero for alpha below about 1.6e-162, and then the value is NaN in every row at every lag at which a shifted sample coincides with a sample, lag 0 included. Proved for the Gaussian weight as long as 2*alpha*alpha is computed as a positive finite number; in binary64 for pow(2,-1076) < alpha^2 <= DBL_MAX/2.)", "quantifier": "all roundings, positive alpha, distances, times and values", "why_tests_cant": "the failure needs an alpha far outside the usual range; that nothing else fails is a statement about all roundings, alphas and distances", "anchors": ["sacf/correlator/Correlator.cpp:gaussianWeightFunction", "sacf/correlator/Correlator.cpp:getGaussianWeights", "sacf/sacf.py:set_up_correlation"]}
{"id": "C100", "title": "The unit of the values does not matter, to the last bit", "statement": "Multiplying every value by the same power of two changes no bit of the lags and correlations that autocorrelation returns (and no failure), whatever the times, parameters, selection function and number of datasets; values may be missing. This holds in binary64 as long as the values, before and after, are zero or between 2^-97 and 2^127 in size, the fractional weights are used, and alpha is not more than about 2^190 times smaller than the time span; with the Gaussian weight as long as no weight below 2^-500 occurs. Outside the range of float it does not hold, although every value is an ordinary double: the normaliser is computed from values narrowed to float, so that values 2^-160 times as large have 14/27 instead of 1 at lag zero, and values 2^130 times as large have 0 everywhere.", "quantifier": "all values in the stated range, powers of two, times, parameters, selection functions; fused multiply-add or not", "why_tests_cant": "bit equality for every data set depends on every rounding in mean, normaliser and sum commuting with the factor; a test compares a few data sets, usually with a tolerance", "anchors": ["sacf/correlator/Correlator.cpp:Correlator", "sacf/correlator/Correlator.cpp:findCorrelation", "sacf/datastructure/DataStructure.cpp:setDataMean"]}
{"id": "C101", "title": "Samples of a smooth signal", "statement": "If the values are samples of a signal f that changes by at most L per unit of time, up to errors eta, then at every lag the correlation is, within (L min(alpha, D) + eta)/sigma, the weighted mean product of each value with the true signal exactly one lag later, however irregular the times: D is the largest distance from a shifted time to the sample selected for it, sigma the standard deviation of the values. So the nearest-neighbour selection costs at most L times alpha (or D), whichever is smaller. If the signal is periodic and the lag is a period, that is, within 2 eta/sigma more, the weighted mean square of the values that have a partner: irregular sampling still shows the period. The same in binary64, with an additional rounding term.", "quantifier": "all signals with a Lipschitz constant, sampling times, errors, alpha, the three weight functions, lags; in binary64 all dyadic times and double values in the stated range", "why_tests_cant": "a statement about all signals and all irregular samplings, with an error bound that has to hold for the worst of them", "anchors": ["sacf/correlator/Correlator.cpp:findCorrelation", "sacf/correlator/Correlator.cpp:naturalSelectionFunctionIdx", "sacf/correlator/Correlator.cpp:getFractionWeights", "sacf/correlator/Correlator.cpp:getGaussianWeights"]}
{"id": "C102", "title": "The correlation of a sinusoid", "statement": "For regularly sampled values c + a cos(omega i + phi), 0 < omega < pi, the correlation at m steps is (1 - m/M) cos(omega m), the tapered cosine of the same period, within 2E/(M - E) with E = 1/sin(omega) + 6/(M sin(omega/2)^2), whatever the offset, amplitude and phase. If the series covers a whole number of periods it is exactly (1 - m/M) cos(omega m) - sin(omega m) cos(2 phi - omega)/(M sin(omega)). In binary64, with values that are the sinusoid only up to errors eta, it is so up to two further terms, for noise and for rounding.", "quantifier": "all frequencies below the Nyquist frequency, amplitudes, offsets, phases, numbers of samples, lags", "why_tests_cant": "a test looks at a few frequencies and lengths and compares a plot or a peak; the closed form and the error bound hold for a continuum of them", "anchors": ["sacf/correlator/Correlator.cpp:findCorrelation", "sacf/datastructure/DataStructure.cpp:setDataMean", "sacf/sacf.py:autocorrelation"]}
{"id": "C103", "title": "Where samples coincide the weights do not matter", "statement": "If at some lag every shifted sample that is not beyond the last time falls exactly on a sample (for regular samples: at every non-negative multiple of the spacing), then the weight function and alpha have no influence on the value, to the last bit, whatever the values, NaN and infinities included. So on regular samples a call with any known weight function and alpha returns the lags of the default call and, at all lags >= 0, its values. At negative lags alpha does matter, on regular samples too. (alpha a number other than 0; for the Gaussian weight 2*alpha*alpha must not underflow or overflow, see C99.)", "quantifier": "all times that are multiples of a power of two, all values, lag parameters, weight functions and alpha; every rounding in which the times are exact; binary64", "why_tests_cant": "bitwise equality of two runs for every pair of weight functions, alpha and data; a test compares a few pairs, usually with a tolerance", "anchors": ["sacf/correlator/Correlator.cpp:naturalSelectionFunctionIdx", "sacf/correlator/Correlator.cpp:getFractionWeights", "sacf/correlator/Correlator.cpp:getGaussianWeights", "sacf/correlator/Correlator.cpp:findCorrelation", "sacf/sacf.py:autocorrelation"]}
{"id": "C104", "title": "Signals with two levels", "statement": "The correlation of a signal that takes two values (transits, eclipses, drop-outs, a change of level) depends only on the number h of samples at the high level and on the weights of the matched pairs that are both high (a), both low (b) and different (c): it is (a (M-h)^2 + b h^2 - c h (M-h)) / (M h (M-h)), whatever the two levels are. On a regular grid the weights are counts; L samples in a row at another level, at least m samples from both ends, give ((L-m)^+ M^2 - (M+m) L^2) / (M L (M-L)) at m steps, negative from the length of the transit on; a single change of level after p samples gives 1 - m (M^2 - p (M-p)) / (M p (M-p)) while m is at most p and M - p. In binary64 up to the error bounds of C61.", "quantifier": "all times, sets of high samples, levels, lags, known weights and alpha; all multiples of a power of two (binary64)", "why_tests_cant": "closed form for every set of high samples, at all times and lags", "anchors": ["sacf/sacf.py:autocorrelation", "sacf/correlator/Correlator.cpp:findCorrelation", "sacf/datastructure/DataStructure.cpp:calcNormData"]}
{"id": "C105", "title": "Zero-dimensional arrays", "statement": "A zero-dimensional numpy array in the place of the times, the values or the errors raises ValueError and builds nothing, whatever the other arguments are; so do values or errors whose first item is one (even if all items are numbers), and one among the rows of a table after rows of numbers. Elsewhere it stands for its number: among the times, among flat values behind a plain number, as max_lag, min_lag, lag_resolution, alpha or return_correlator, assigned to an attribute of a correlator, and in CorrelationIterator(k, n), where nothing depends on whether the number or the array was passed.", "quantifier": "all arguments, all numbers, all other items and arguments", "why_tests_cant": "universal over argument shapes; depends on the order in which pybind11 tries its casters", "anchors": ["sacf/datastructure/datastructure_bindings.cpp", "sacf/sacf.py:SACF.__init__", "sacf/include/pybind11/include/pybind11/stl.h", "sacf/include/pybind11/include/pybind11/cast.h"]}
{"id": "C106", "title": "A pandas Series is the list of its rows", "statement": "Passing the columns of a table as pandas Series builds the same object as passing the lists of their values, row by row. (False of the code: pybind11 looks the items up by s[0], s[1], ..., and a Series with integer labels answers by label. If the labels are 0, ..., n-1 in some order, the object is that of the values in the order of the labels, whatever the order of the rows, so sorting the table by time has no effect. If a label below n does not occur, as after rows have been dropped, the KeyError of that look-up surfaces and nothing is built. More generally only the look-ups of a sequence count, and an exception raised by one surfaces.)", "quantifier": "all labels, row orders, values, numeric types and numbers of rows", "why_tests_cant": "universal over row orders and over objects with their own sequence protocol", "anchors": ["sacf/datastructure/datastructure_bindings.cpp", "sacf/sacf.py:SACF.__init__", "sacf/include/pybind11/include/pybind11/stl.h", "sacf/include/pybind11/include/pybind11/pytypes.h"]}
{"id": "C107", "title": "The spectrum of the correlations is the periodogram", "statement": "For a regular series the cosine sum 1 + 2 (v(1) cos w + v(2) cos 2w + ... + v(M-1) cos (M-1)w) over the correlations at 0, 1, ..., M-1 steps equals, at every frequency w, the periodogram of the values: the squared modulus of the Fourier sum of the values with their mean removed, divided by the sum of their squares. At the frequencies 2 pi k/M, 0 < k < M, of a discrete Fourier transform the mean need not be removed. So transforming the correlations shows the same peaks as transforming the data, and never a negative power. In binary64 it is so up to 2(M - 1) times the error bound of C61, with any of the weights and any alpha.", "quantifier": "all regular series that are not constant, all frequencies, known weights, alpha", "why_tests_cant": "universal over real frequencies, values and grids", "anchors": ["sacf/correlator/Correlator.cpp:findCorrelation", "sacf/sacf.py:autocorrelation"]}
{"id": "C108", "title": "Only clearCorrelation leaks memory", "statement": "Every block of memory that a computation allocates with new is deleted again, whatever is computed, with whatever data and arguments and whichever calls raise: autocorrelation() leaves none behind, whether it returns or raises, so that it may be called any number of times. The only leak is clearCorrelation(): each call leaves exactly one block that is never released. (Running out of memory in the middle of a computation is left out.)", "quantifier": "all data, all arguments, all sequences of calls on a Correlator, exceptions caught or not", "why_tests_cant": "leaks have no effect that a test of results sees; universal over call histories", "anchors": ["sacf/correlator/Correlator.cpp:_calculateStandardCorrelation", "sacf/include/Correlator.h:clearCorrelation"]}
{"id": "C109", "title": "The Fourier method gives the same correlations", "statement": "For a regular series of M values the correlations at 0, 1, ..., M-1 steps are those of the usual method by fast Fourier transforms: remove the mean, pad with zeros to a length L of at least 2M - 1, transform, take squared moduli, transform back, divide by the sum of squares. Without padding (L = M) that method gives, at m steps, the sum of the correlations at m and at M - m steps instead. In binary64 the correlations differ from those of the (exact) Fourier method by at most the error bound of C61, with any of the weights and any alpha.", "quantifier": "all regular series that are not constant, all lengths L, known weights, alpha", "why_tests_cant": "universal over values, grids and lengths of transforms", "anchors": ["sacf/correlator/Correlator.cpp:findCorrelation", "sacf/sacf.py:autocorrelation"]}
{"id": "C110", "title": "Work of a computation", "statement": "Computing the correlations at L lags of N datasets of M samples with the default functions takes at most L (M (log2 M + N + 5) + 7N + 2) + N passes through loops and elements allocated or copied, whatever the times, the values, the lags and the calls before. So the work is proportional to the number of lags and nearly proportional to the number of samples, and the match of a sample is found by about log2 M comparisons even when times repeat or are out of order. For autocorrelation() the work of creating the Correlator (C111) and of copying the results is added.", "quantifier": "all objects, lag arguments, histories of calls", "why_tests_cant": "an upper bound over all inputs; tests measure a few", "anchors": ["sacf/correlator/Correlator.cpp:calculateStandardCorrelation", "sacf/correlator/Correlator.cpp:naturalSelectionFunctionIdx", "sacf/sacf.py:autocorrelation"]}
{"id": "C111", "title": "Work of creating a Correlator", "statement": "Creating a Correlator for N datasets of M samples, P of which are present, with S slots for the default lags, takes exactly 2N + NM + 2NP + (M - 1) + (N + 1)S passes through loops and elements allocated or copied: each present sample copies the means of all datasets twice. So it grows with the square of the number of datasets (at least 2 N^2 M when nothing is missing), not with the size of the data; and the slots are those of the default lags, whatever range and resolution are set afterwards.", "quantifier": "all objects", "why_tests_cant": "an exact count for all inputs", "anchors": ["sacf/correlator/Correlator.cpp:Correlator", "sacf/datastructure/DataStructure.cpp:mean_data"]}
{"id": "C112", "title": "A value written as nan in a file is a missing sample", "statement": "A row of a data file whose value is the word nan (or inf, null, ...) gives a sample whose value is missing, as a NaN in a list does.  What the code does instead: the row is left out without any exception, so the object is that of the other rows (its size, times, mean and correlations are theirs); a file with no complete row raises the exception for empty data.", "quantifier": "all tables of decimal numbers with any rows missing, any word that starts no number", "why_tests_cant": "all tables and words; no test reads a file with such values", "anchors": ["sacf/datastructure/DataStructure.cpp:DataStructure(filename)"]}
{"id": "C113", "title": "An empty field in a file is a missing value", "statement": "A row of a data file with an empty field (1,,7) has a missing value there.  What the code does instead: an empty field is no field, so the next column takes its place: the error becomes the value, without any exception, and the errors are one too few (C14).", "quantifier": "all files", "why_tests_cant": "all files and positions", "anchors": ["sacf/datastructure/DataStructure.cpp:DataStructure(filename)"]}
{"id": "C114", "title": "Line endings, blank lines and repeated separators make no difference", "statement": "What is built from a file (or the exception raised) depends only on the words of its lines: Windows line endings, blank lines, indentation, trailing separators, repeated separators and a missing final newline make no difference.", "quantifier": "all files", "why_tests_cant": "all files; tests read three", "anchors": ["sacf/datastructure/DataStructure.cpp:DataStructure(filename)"]}
{"id": "C115", "title": "A file whose columns are not plain numbers is rejected", "statement": "A file with dates (2020-01-05,3.5), times of day (12:30,5) or decimal commas (1,5;2,5) is rejected, or its rows are left out.  What the code does instead: a date is read as the time 2020 and the value -1 (minus the day and the value become errors), so the values are not read and all times of a year coincide; with decimal commas the fraction of the time becomes the value; a time of day, a unit or a hexadecimal number in the first column makes the row disappear.  No exception is raised unless no row is left.", "quantifier": "all tables of such rows, any digits", "why_tests_cant": "all tables; no test reads such a file", "anchors": ["sacf/datastructure/DataStructure.cpp:DataStructure(filename)"]}
{"id": "C116", "title": "Dates lose nothing", "statement": "When the time stamps are doubles in order, the first is positive and the last is at most twice the first (Julian days, seconds since 1970, decimal years), no difference of two of them is rounded: normalised_timeseries() has exactly their differences, the default range of lags is exactly the time span and the default resolution exactly the smallest gap. Counting the dates from another day without rounding changes no bit of the lags and correlations, for any parameters, selection and weight functions.", "quantifier": "all such time stamps in binary64, all values and parameters", "why_tests_cant": "bit-for-bit claim over all doubles", "anchors": ["sacf/datastructure/DataStructure.cpp:calcNormt", "sacf/correlator/Correlator.cpp:Correlator"]}
{"id": "C117", "title": "Number of lags of a default call", "statement": "For M increasing times with span S and smallest gap d, a call with the default lags gives one more than the whole part of 2S/d lags, and another one, the lag 0, unless S is a multiple of d. So there are at least 2M - 1 lags, and exactly so many only if the sampling is regular. No number of samples bounds the number of lags or the work: three samples at the times 0, 1, n give 2n + 1 lags, for every n up to the range of int.", "quantifier": "all increasing times, exact arithmetic; in binary64 for times that are multiples of a power of two", "why_tests_cant": "a count for all time lists", "anchors": ["sacf/correlator/Correlator.cpp:Correlator", "sacf/correlator/Correlator.cpp:calculateStandardCorrelation", "sacf/sacf.py:autocorrelation"]}
{"id": "C118", "title": "Work of find_correlation and of the fast selection", "statement": "find_correlation(), the Python loop used for other functions, takes no more steps than the C++ loop: with the default functions exactly as many whenever a lag is due, with other weights within the bound of C110, so what its docstring calls considerably slower is a fixed number of calls for each lag. With the fast selection, L lags of N datasets of M samples take at most L (M (N + 5) + log2 M + 7N + 3) + N steps: the logarithm is paid once a lag, where the natural selection pays at least log2(M + 1) for each sample it selects.", "quantifier": "all objects, histories of calls, lags and weights", "why_tests_cant": "bounds for all sizes", "anchors": ["sacf/sacf.py:find_correlation", "sacf/correlator/Correlator.cpp:fastSelectionFunctionIdx", "sacf/correlator/Correlator.cpp:naturalSelectionFunctionIdx"]}
{"id": "C119", "title": "Missing and infinite time stamps", "statement": "A NaN among the times between the first and the last is not skipped: the value at lag 0 and at every negative lag is NaN in every dataset, and, in exact arithmetic, so is the value at every lag that moves no earlier time beyond the last (fast selection: to the last or beyond). If it is the entry in the middle, the default alpha is NaN and the value is NaN at every lag up to the span. The default resolution ignores it: it is the least gap between adjacent entries both present, and DBL_MAX if there are none. A first or last time that is NaN or infinite makes every call undefined; any other infinite time makes the default resolution minus infinity, and no default call returns.", "quantifier": "all objects with such times, all weights and values", "why_tests_cant": "all positions of the missing times, lags and lengths; undefined behaviour and non-termination cannot be observed by a test", "anchors": ["sacf/correlator/Correlator.cpp:naturalSelectionFunctionIdx", "sacf/correlator/Correlator.cpp:fastSelectionFunctionIdx", "sacf/correlator/Correlator.cpp:findMinDiff", "sacf/datastructure/DataStructure.cpp:settMedian"]}
{"id": "C120", "title": "With the default resolution, lags are returned for increasing times only", "statement": "Whatever the rounding, selection and weights, a call that leaves lag_resolution at its default and returns any lag was given strictly increasing times. Otherwise it returns empty lists, raises or is undefined; with the natural selection a default call is undefined as soon as one time is not after its predecessor, unless the last time is before the first (C56), and no call, whatever its arguments, returns more than three lags, because no more places are allocated. In binary64, if the span is at most 2^25 times every positive gap of neighbours, a default call returns lags if and only if the times are strictly increasing. So a returned default result tells that the times were in order, but nothing else reports that they were not, and with a given short range unordered times go unnoticed (C56).", "quantifier": "all times and values, any rounding", "why_tests_cant": "all orders of all times; one of the outcomes is undefined behaviour", "anchors": ["sacf/correlator/Correlator.cpp:findMinDiff", "sacf/correlator/Correlator.cpp:Correlator", "sacf/sacf.py:autocorrelation"]}
{"id": "C121", "title": "The most lags a call can return", "statement": "For strictly increasing times of span S and smallest gap d, in exact arithmetic, no call returns more than floor(2S/d) + 3 lags, whatever range, resolution, selection and weights it asks for. For all such times the bound is attained: with q = floor(2S/d) the default range and the resolution 2S/(q + 3/2) give exactly q + 3 lags with the natural selection, and the finer resolution 2S/(q + 5/2) makes the call write outside the memory allocated. In binary64 the bound is the same for time stamps that are multiples of a power of two (span below 2^52 of them). So the number of lags is limited by the times alone: over the full range a user cannot ask for a resolution noticeably finer than the default.", "quantifier": "all strictly increasing times, all arguments", "why_tests_cant": "a maximum over all arguments for all times; beyond it the behaviour is undefined", "anchors": ["sacf/correlator/Correlator.cpp:Correlator", "sacf/correlator/Correlator.cpp:findCorrelation", "sacf/sacf.py:autocorrelation"]}
{"id": "C122", "title": "The zero lag of a default call is in the middle", "statement": "In the result of a call with default lags for strictly increasing times, lags[len(lags) // 2] is 0, all lags before it are negative and all behind it positive, so that lags[len(lags) // 2:] is the half a user plots. This holds in exact arithmetic for all times, and in binary64 for time stamps that are multiples of a power of two, also when the lags are not symmetric; they are symmetric exactly if twice the span is a multiple of the smallest gap. It is false for other doubles: for the times 0.3, 0.6, 2.4 the grid passes zero at 1.1e-16, the lag in the middle, and 0 is one place before it. If the span is at most 2^20 times the smallest gap, zero is never more than one place beside the middle.", "quantifier": "all strictly increasing times and values", "why_tests_cant": "the position depends on the parity and the remainder of span by gap, and on rounding; most examples agree with it", "anchors": ["sacf/correlator/Correlator.cpp:calculateStandardCorrelation", "sacf/correlator/Correlator.cpp:findMinDiff", "sacf/sacf.py:autocorrelation"]}
{"id": "C123", "title": "Equal span and smallest gap give equal lags", "statement": "Two objects whose correlators have the same max_lag and lag_resolution report the same lags in all calls with the same lag parameters, to the last bit, whatever their values, number of samples, number of datasets, alpha, selection and weight function. In exact arithmetic the default calls of two series of strictly increasing times report the same lags if and only if the spans are equal and the smallest gaps are equal. So results of several stars can be averaged lag by lag exactly in this case.", "quantifier": "all pairs of objects and calls", "why_tests_cant": "a statement about all pairs of inputs, with a converse", "anchors": ["sacf/correlator/Correlator.cpp:Correlator", "sacf/correlator/Correlator.cpp:calculateStandardCorrelation", "sacf/sacf.py:autocorrelation"]}
{"id": "C124", "title": "When the default lags are evenly spaced", "statement": "For strictly increasing times the lags of a default call are evenly spaced if and only if the span of the times is a multiple of the smallest gap. Otherwise all neighbouring lags are one gap apart, except that zero is inserted between two of them, so that the gap around zero is split in two. A transform of the correlations that assumes a constant step is right in the first case only. In binary64 the same holds for time stamps that are multiples of a power of two; for decimal time stamps it does not: the times 0, 0.1, 0.2, 0.3 give the lags -5.6e-17 and 0 next to each other.", "quantifier": "all strictly increasing times, in exact arithmetic and for multiples of a power of two in binary64", "why_tests_cant": "an equivalence over all samplings; tests on regular samplings see evenly spaced lags only", "anchors": ["sacf/correlator/Correlator.cpp:Correlator", "sacf/correlator/Correlator.cpp:calculateStandardCorrelation", "sacf/sacf.py:autocorrelation"]}
