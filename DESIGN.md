# Formal model of joshbriegal/sacf in Lean 4 — design

The properties are in `properties.jsonl`, their status and theorem names in `MANIFEST.json`, the experiments with wrong
programs in `seeded/`.  Everything else is in `lean/Verif`:

* `Model/` — the code, function by function.  Each definition cites the file and the lines it renders.
* `Spec/` — what the properties talk about: sums, nearest samples, files, histories.  Written without the model's helpers,
  except for the types of its inputs and outputs.
* `Lemmas/` — auxiliary proofs.
* `Props/` — one theorem `Cnn_…` or more per property, each with a concrete case that meets its hypotheses next to it or in
  `Props/Witness.lean`.  `Props/RepoTests.lean` runs the repository's own test suite (including its data files) on the binary64 model.
* `Cases/` — the theorems of `Props` applied to concrete objects, with every hypothesis discharged, for those that are not applied next to
  their proof.

## 1. What is modelled

| part of /repo | module | how |
|---|---|---|
| outcomes: value / C++ or Python exception / undefined behaviour | `Model/Res.lean` | monad `Res` with `ok`, `exn e`, `ub` and `diverge` (fuel exhausted; proved unreachable, C49) |
| `double`, `float`, `int` conversions | `Model/Arith.lean` | class `Arith F` of raw operations, no laws; instance `XF R`: NaN, the infinities and an ordered field, every operation followed by a rounding `R` and overflow |
| IEEE binary64 and binary32 | `Model/Binary64.lean` | round to nearest even on the rationals, with subnormals and overflow; `exp` is a parameter |
| negative zero | `Model/SignedZero.lean` | `SZ R`: `XF R` with a sign on zero and the IEEE sign rules; C62 shows that it is immaterial |
| `std::vector` | lists; `Vec` (elements and stale storage) where the code reads after `clear()` | unchecked `[]` out of range is `ub`, `.at` out of range is `IndexError` |
| `sacf/datastructure/DataStructure.cpp`, `.h` | `Model/DataStructure.lean`, `Model/File.lean` | all constructors, setters and accessors; the file reader character by character, including libstdc++'s `>> double` |
| `sacf/correlator/Correlator.cpp`, `.h` | `Model/Correlator.lean` | all member functions; `std::lower_bound` as libstdc++'s loop |
| `sacf/sacf.py` and the pybind11 bindings | `Model/Python.lean` | `SACF.__init__`, `set_up_correlation`, `find_correlation`, `autocorrelation`, pybind11's conversions of numbers and sequences and its two-pass overload resolution |
| the same with the object an exception leaves behind; function names that are any object; `int` arguments | `Model/Session.lean` | `Out`: outcome and object; sessions of calls with exceptions caught |
| the methods on `CorrelationIterator` objects likewise; several iterators at once; `None` and other objects as iterators | `Model/Iterator.lean` | `Out` for one iterator; sessions on a correlator and a list of iterators |
| object lifetimes, `keep_alive<1, 2>`, destructors | `Model/Heap.lean` | heap with reference counts; histories of Python operations |
| the two `new`s of the C++ code and the one `delete` | `Model/Alloc.lean` | the state of `Model/Session.lean` with the number of blocks not deleted; `std::bad_alloc` not modelled |
| number of steps | `Model/Cost.lean`, `Model/CostPython.lean` | the C++ driver, the constructor, `autocorrelation` and `find_correlation` with a counter of loop passes and of elements allocated or copied; the bindings, the interpreter and the growth of vectors by `push_back` are not counted |
| several Python threads | `Model/Threads.lean` | `autocorrelation` and `find_correlation` as sequences of steps, one for each call into the library (no binding releases the interpreter lock); threads on a heap of correlators; schedules are arbitrary lists of threads |
| Ctrl-C | `Model/Interrupt.lean` | `find_correlation` abandoned after any number of its steps; histories of calls with such ones among them |

### Not modelled

* the build (`setup.py`, CMake), logging, documentation, notebooks;
* memory exhaustion, and `int` loop counters beyond 2^31 samples;
* arguments with user-defined conversions to `float`, or whose look-ups change from one to the next; how `pandas` looks up labels that are repeated or not integers;
* threads in an interpreter without the global lock (free-threaded builds); signals inside a C++ call (CPython defers them); interpreter shutdown;
* the accuracy of `exp`: theorems that mention the Gaussian weight hold for any function, or state what they need of it.

### The `abs` overload

`Correlator.cpp` calls unqualified `abs(double)`.  Which function this is depends on the standard library's headers: `int abs(int)`
from `<stdlib.h>`, or `double abs(double)`.  The model takes the overload as a parameter (`AbsFn.intAbs`, `AbsFn.fabs`); theorems
hold for both unless they say `.fabs`; C20 and C29 show what breaks with the integer one.

## 2. Layers of theorems

* **Law-free**: any `Arith F`.  Such a theorem holds of the compiled program whatever its arithmetic, in particular bit for bit in binary64.
* **Rounded**: any `XF R`, i.e. any monotone odd idempotent rounding that fixes 0 and 1.  Includes binary64.
* **Exact**: `XF (Rnd.exact ..)` over any ordered floor field (rationals, reals).  The narrowing to `float`, `DBL_MAX` and `exp` stay
  parameters.
* **binary64**: `D64 ex fu = XF (Rnd.binary64 ex fu)`.

Compilers may contract `c + a*b` to a fused multiply-add (one rounding instead of two; gcc does so by default where the target has the
instruction).  The three places of the code with this shape – the normaliser, the sum over pairs, the squared weight – use the operation
`Arith.addMul`; a `Rnd` has a flag `fused` (`fu` above) that selects one or two roundings, and the theorems hold for both values.

C60 and C61 connect the layers: on times that are multiples of a power of two, lags and selection of the binary64 program are the exact
ones, and its correlations differ from the exact ones by at most an explicit bound.

## 3. Per property

"false" means that the property as a user would expect it is refuted by a theorem with a concrete input; the theorems named in
`MANIFEST.json` then give the exact condition under which it holds.

| id | layer | modelled by | proof |
|---|---|---|---|
| C01 | law-free | flat constructors, `setUp` | case analysis on sizes; slice lemmas |
| C02 | law-free | same | false; surplus values are never read (simulation of two objects) |
| C03 | law-free | accessors | index arithmetic `flatten[i + j M] = rows[j][i]` |
| C04 | exact, rounded | `calcNormt` | list lemmas; monotone rounding |
| C05 | exact, rounded, binary64 | `setDataMean`, `calcNormData` | induction over the samples, sums over those present; rounded: error of the summation, also with missing values |
| C06, C07 | exact, rounded, law-free | `settMedian`, `settMax` | counting argument; last element |
| C08, C09 | law-free | table constructors, `err_2d` | false; `ub` iff a count is too small |
| C10–C13 | law-free | `File.lean` | induction over lines and characters; printer/reader round trip |
| C14 | law-free | same | false; denotation of an arbitrary file, then the two good cases |
| C15 | law-free, exact, rounded | `Correlator::Correlator`, `findMinDiff` | induction over adjacent pairs |
| C16 | exact, rounded | same | false (repeated time); slot count for increasing times |
| C17, C18 | exact, rounded, binary64 | lag loop | loop invariant; specification is "strictly sorted and these members".  C18 false at two corners |
| C19 | exact, rounded | `lower_bound`, natural selection | binary search invariant, then nearest sample; rounded: repeated times allowed |
| C20 | exact, rounded, binary64 | `AbsFn`; `Spec/IntAbs.lean` | false for `int abs(int)`; the exact value returned then, in general and below one unit; undefined behaviour from 2³¹ on; agreement on integers, in any rounding |
| C21 | law-free, exact | result buffers | false; safe iff number of lags ≤ slots |
| C22 | law-free | `autocorrelation` | invariant of the lag loop |
| C23 | law-free | per-row functions | result is a map over the rows (`acOut_table`) |
| C24 | law-free | C++ and Python drivers | simulation of the two loops |
| C25 | all | whole pipeline | zero lag pairs each sample with itself; in binary64 within the error bound, Gaussian weight in `Props/Gauss64.lean` |
| C26 | exact, binary64 | normaliser | false; ratio law, in binary64 within the error bound, for either weight (`Props/Narrowed.lean`, `Props/GaussMore.lean`) |
| C27, C28, C29 | exact, rounded, binary64 | whole pipeline | relational: corresponding runs of two objects; `C27_error` via the error bound; `C29_rounded`: a rounded quotient depends on the exact quotient only; `C28_error`, `C29_error`: arbitrary doubles, via C70 and the Lipschitz constants of the weights; `C27_binary64_gaussian` for the Gaussian weight |
| C30, C31, C33, C47 | exact | whole pipeline | refinement to the formula `sacf`, then algebra (Cauchy–Schwarz for C33, in binary64 via the error bound).  C31, C33 false; the amount by which they fail also in binary64 (`Props/ErrorCor.lean`); the bound from the gaps between the times in `Props/Gaps.lean`; C30, C31 and C33 for the Gaussian weight in binary64 in `Props/Gauss64.lean` |
| C32 | exact, rounded, reals | weight functions | order lemmas; Gaussian over the reals |
| C34 | exact, rounded, binary64 | normaliser | 0/0 when the constant is a `float` and its computed mean is exact (in binary64: n·2^e with n below 2^24 and M·n at most 2^53); false in binary64 in general |
| C35 | exact, rounded, binary64 | NaN values | false; NaN exactly at the lags that use a missing value, and the formula at the others: exactly in exact arithmetic (`Props/Missing.lean`), within the error bound of C61 in rounded arithmetic and binary64, for multiples of a unit and for arbitrary times in order (`Props/MissingRounded.lean`, `Lemmas/ErrorObs.lean`), with the Gaussian weight too (`Props/GaussMore.lean`) |
| C36 | exact, rounded, binary64 | fast selection | false; closed form of its output (`Props/Fast.lean`); in rounded arithmetic when it raises, which samples are matched, and the values within the error bound; the default call raises unless the last gap is the smallest and divides twice the span (`Props/FastRounded.lean`); the Gaussian weight: `Props/GaussMore.lean` |
| C37, C38 | law-free | dictionaries of functions, driver | case analysis, with fast selection on the result of the selection at the first lag.  C38 false on the Python path |
| C39 | law-free | natural selection | binary search stays in range for any comparison results |
| C40, C41, C42 | law-free | correlator and SACF object | state invariants over arbitrary call histories |
| C43 | law-free | `Vec` | false; strict and retained-storage semantics of the read |
| C44 | – | heap of references | invariant by induction over histories |
| C45 | rounded | lag loop | the lag never passes `max_lag` |
| C46 | binary64 | lag loop and slots | accumulated rounding error of the lag; `C46_witness` shows the bound is nearly attained |
| C48 | law-free | overload resolution | case analysis on nested lists |
| C49 | law-free | all loops | number of slots bounds the loops, so the fuel is never exhausted |
| C50 | law-free | driver | value at a lag is a function of lag, alpha and data |
| C51 | law-free | constructors | errors are not read |
| C52 | exact, rounded | pipeline | formula at extreme lags |
| C53 | rounded | normaliser | infinity in the normaliser |
| C54 | law-free/rounded | single sample | evaluation |
| C55 | rounded | weights | sign and zero of alpha; with fast selection the first sample is matched with itself at lag zero (natural selection in any rounding: C99) |
| C56 | rounded | driver on unsorted times | the computed span is negative, so the default range is empty; evaluation, witness |
| C57, C58 | law-free | `CorrelationIterator` | invariant of the per-lag functions |
| C59 | rounded | pipeline | relational: negated rows |
| C60 | rounded, binary64 | pipeline | all time arithmetic is exact on multiples of a unit |
| C61 | rounded, binary64 | pipeline | forward error analysis against the exact formula; the Gaussian weight for any library `exp` within 2^-53 of the real exponential |
| C62 | rounded | `SZ R` | forgetting signs is a homomorphism, carried through every function of the model |
| C63, C64 | law-free | overload resolution, setters | case analysis on readings of the arguments.  C63 false |
| C65, C69 | law-free | sessions of calls | invariant; relational: two objects that agree up to the contents of the buffers run in step |
| C66 | law-free | caller's loop over lags | the loop is a fill of the buffers with the per-lag plan of the driver |
| C67 | law-free | `addCorrelationData`, `cleanCorrelationData` | exact outcome for every integer |
| C68 | law-free | `SACF.autocorrelation` with any object as name | evaluation of the first pass of the loop |
| C70 | rounded, binary64 | pipeline on arbitrary time stamps; `Spec/AnyTimes.lean` | matching is exact for the computed times, hence nearly nearest for the given ones; then the error analysis of C61 with perturbed distances; Gaussian weight in binary64 against the real exponential |
| C71 | rounded, binary64 | lag loop, default parameters | accumulated rounding error of the running lag |
| C72 | law-free, rounded | `Model/Iterator.lean`: the per-lag methods with the state an exception leaves | one equation per method for any state; refinement to the functions of `Correlator.lean` |
| C73 | law-free | sessions with a correlator and iterators | simulation: the full session and the iterator's own calls run in step; effect of assigning the attribute `k` |
| C74 | exact, binary64 | `autocorrelation`, natural selection, regular times | C30 for both series; sums reflected; binary64 from C61; irregular times refuted by a witness |
| C75 | exact, binary64 | same, any times | every matched sample coincides, so all weights are one; periods by induction; binary64 from C61 (all three weights) |
| C76 | exact, binary64 | same, regular times | the square of the sum of the deviations, which is zero, split by distance from the diagonal; induction |
| C77 | exact, binary64 | same, any times, all weights (Gaussian in exact arithmetic: inequalities of the exponential as hypotheses; in binary64: library `exp` within 2^-53) | difference of two weighted sums as one with rescaled weights, bounded by C33's Cauchy–Schwarz bound |
| C78 | exact, binary64 | same, any times | false: for every η a pair of inputs η apart whose correlations are 1/4 and 0; `_partial`: with margins the same samples are matched, and the weights are Lipschitz; all three weights, also in binary64 |
| C79 | exact, binary64 | same, any times | bilinear in the deviations; Cauchy–Schwarz over the matched pairs for each term and for the normaliser; all three weights, also in binary64 |
| C80 | exact, binary64 | regular times | Gram matrix of the shifted, zero-padded deviations; binary64 from C61; irregular times refuted by a witness |
| C81 | exact, binary64 | natural selection, known weights, default `alpha` | non-negative lags: the cells of nearest samples are at most G wide and half open, so at most ⌈G/δ⌉ shifted times fall in one and each is within G/2; the median is at least (M − 1)δ/2; then C77 |
| C82–C84 | exact, binary64 | regular times | C30 and sums in closed form; for the peak, xy ≤ (x² + y²)/2 and whole periods; binary64 from C61 |
| C85 | exact, binary64 | natural selection, any times | sum over the symmetric group of products of deviations at two places, by reindexing with transpositions; binary64 from C61 |
| C86 | law-free | any history of calls without clearCorrelation; exact condition for the natural selection of calculateStandardCorrelation | partial: false of the code (C86_false); invariant "slots never grow" over sessions, closed form of the driver (`calculateStandard_eq`) on every reached state, induction over the sequence of ranges |
| C87 | exact, binary64 | whole pipeline; samples missing from a regular grid; all three weights | the pairs at distance 0 are exactly those of the sum, the others are at least one step apart; Cauchy–Schwarz with the number of times a sample is matched, bounded by the longest gap; in binary64 via `realAcf`, the formula over the reals (`Spec/Sampling.lean`), and C61 |
| C88 | exact, binary64 | whole pipeline; times and lag near a regular grid; all three weights | the nearest sample is the one of the grid; weights within `weightLoss` of 1 |
| C89 | exact, binary64 | whole pipeline; regular grid, lags between grid points; all three weights | the nearest sample is the one below or above; the equation is exact (binary64: up to C61) |
| C90 | exact, binary64 | whole pipeline, one run for each of the M! orders on a regular grid | fourth moments of a random order from symmetry (swapping two places) and the zero sum of the deviations; count of the pairs of products sharing a place; Chebyshev's inequality as a count |
| C91 | law-free | threads; `autocorrelation`, `find_correlation` and the calls on a `Correlator` step by step | the steps of one thread compose to the whole call (induction over the loop); the view of a thread that shares no correlator is unchanged by the steps of others; induction over the schedule |
| C92 | law-free | the same, threads sharing a correlator | false, by two interleavings: a table with columns of both calls, and a write outside the buffers; invariant: the slots written so far hold the results of some of the calls, each thread knows the course it takes alone, and all courses go through the same lags; a rank bounds the steps left |
| C93 | law-free | `find_correlation` step by step, stopped after any number of steps | every step before line 92 changes the contents of the buffers only, which no computation reads; after line 92 the call is complete, and making it again changes nothing; the table by the invariant of C92 |
| C94 | exact, binary64 | whole pipeline, any times | C47; the selection and weights depend on the times only, and deviations are linear in the values; `Props/SumsAnyTimes.lean`: the rounding errors of C61, multiplied by the sums of squares, are added up |
| C95–C96 | exact, binary64 | regular times | C30; sums over the placed samples, and the square of a difference; binary64 from C61 |
| C97 | exact, binary64 | regular times | C30; 2xy ≤ (u'/u) x² + (u/u') y² with u = sin((⌊i/m⌋ + 1) θ), whose neighbours m steps away add up to 2 cos θ u; over the reals, for rational data; binary64 from C61 |
| C98 | law-free | the same as C92, the contents of the correlator after any schedule | false, by a reader before and after line 92 of the first call; the invariant of C92 at any moment; a thread that has returned stays so, and all calls leave the same lags |
| C99 | rounded, binary64 | `Corr.gaussianWeight` on `XF R` with underflow and overflow | false of the code (`C99_false`, closed, binary64); monotone rounding for the range and order of the weights; if `2*alpha*alpha` is zero the plan of every lag with an exact match contains a NaN weight; in binary64 a product underflows iff it is at most `2^-1075` |
| C100 | binary64 | `meanOf`, `normOf`, `Corr.sumCorrelation` on `D64` | `Lemmas/Dyadic`: rounding commutes with `2^s` on multiples of the subnormal spacing; every intermediate result is a multiple of a power of two that stays above it and is bounded, so a relation `x, x*2^s` is carried through mean, deviations, narrowing to `float`, normaliser and sum; the last product has the same exact value. `C100_outside` (closed): below and above the range of `float` the result differs |
| C101 | exact, binary64 | `autocorrelation` over an ordered field and on `D64` | `Props/Smooth`: a partner at distance delta differs from the signal one lag later by at most L delta, and weight times delta is at most min(alpha, delta) for all three weights (Gaussian: from `exp y ≤ 1/(1-y)`); summed with the Cauchy-Schwarz bound on the sum of deviations. The binary64 form adds the error bound of C47 to the same statement over ℝ with the real exponential |
| C102 | exact (ℝ), binary64 | `autocorrelation` on regular times | `Props/Sinusoid`: telescoping sums of cosines bound `∑ cos(ω i + φ)` by `1/sin(ω/2)`; product to sum for the covariance at each lag; when the frequency is a multiple of 1/M the sums are evaluated exactly. binary64: C61 plus the noise bound of C54 |
| C103 | rounded, binary64 | `autocorrelation`, natural selection | `Props/GridWeights.lean`: the nearest sample is the coinciding one (times strictly increase), its weight is computed as 1 for every weight function, so both calls build the same list of weights and partners and the same loop runs over it; witness for the negative lags |
| C104 | exact, binary64 | whole pipeline, any times | `Props/Levels.lean`: the deviations are a (M-h)/M and -a h/M; the pairs of C47 are split by the levels of their samples; on a regular grid the counts are those of intervals; binary64 by C61 with the weights over the reals |
| C105 | law-free | overload resolution, setters, iterator constructor | `Props/ZeroDim.lean`: the sequence caster reserves `size_t(-1)` items and throws `std::length_error`; case analysis on the two passes over the overloads |
| C106 | law-free | overload resolution | `Props/Series.lean`: the result depends on the look-ups only; the look-ups of a Series (`series` in `Spec/PyArgs.lean`, the only fact about `pandas` that is used) are those of the list in label order.  False |
| C107 | exact (reals), binary64 | regular times | `Props/Periodogram.lean`: square of a sum as sum over distances, addition theorem; C30 and C61 |
| C108 | law-free | none (any constructed object) | `Props/Leak.lean`: the standard computation raises nothing between `new` and `delete` (selected positions are in range), so the count of blocks comes back; induction over the history |
| C109 | exact (reals), binary64 | regular times | `Props/Fft.lean`: orthogonality of the powers of a primitive root of unity, cyclic sums over pairs; C30 and C61.  `dft`, `idft`, `fftAcf` are the specification |
| C110, C111 | law-free | `Model/Cost.lean` | `Props/Cost.lean`: erasing the counter gives the functions of `Model/Correlator.lean`; bounds through the loops; binary search by halving of the range; exact count for the constructor |
| C112 – C114 | law-free | `Model/File.lean` | `Props/Words.lean`: the numbers of a line depend on its words (split at separators) only; a word that starts no number ends its line.  C112 and C113 are false of the code |
| C115 | law-free | `Model/File.lean` | `Props/Dates.lean`: a sign starts a new number without a separator; `C14_meaning`.  False of the code |
| C116 | binary64 | `Model/Binary64.lean` | `Props/Julian.lean`: the difference of two doubles within a factor of 2 is a double (both are integers times powers of two; the difference has no more bits); C28 |
| C117 | exact, rounded, binary64 | `Model/Correlator.lean` | `Props/LagCount.lean`: the lags of C17 (C60 in binary64) are counted as a list without repetitions; the span is at least `M - 1` gaps, with equality only for regular times |
| C118 | law-free | `Model/CostPython.lean` (counter of C110 for the Python driver and the fast selection) | `Props/CostPython.lean`: same counting rules; equality of the two loops as functions with a counter; a lower bound for binary search |
| C119 | rounded, exact | times on `XF R` with NaN and infinities | `Props/MissingTimes.lean`: the loop over the shifted times does not stop at a NaN, so its weight is NaN; `findMinDiff` as the least of the comparable differences; a conversion of a non-finite number to `int`; C45 for the lags that never end |
| C120 | rounded, binary64 | default resolution | `Props/OrderNoticed.lean`: `findMinDiff` is the least difference of neighbours, C45 for a resolution of zero or below, monotone rounding; C46 for the other direction |
| C121 | exact, binary64 | memory of the lag list | `Props/MostLags.lean`: the lags are at most the places allocated (C16); a grid of `q + 2` points that misses zero gets a zero added and fills them all; C21 for the next finer one; in binary64 the rounded quotient does not reach the next integer |
| C122 | exact, binary64 | default lags | `Props/Middle.lean`: the lags of C17 (C60 in binary64) before zero are counted, and compared with the number of all lags of C117; a witness for decimals; the drift of C71 for arbitrary doubles |
| C123 | law-free, exact | lag loop | `Props/SameLags.lean`: the lag list is a function of the three lag parameters (C17); conversely the first two default lags are minus the span and that plus the gap |
| C124 | exact, binary64 | default lags | `Props/EvenLags.lean`: the lags of C17 (C60 in binary64) written out as a list in both cases; decimal times by a run of the binary64 model |

The binary64 theorems for regular grids (C30, C74–C76, C80, C82–C84, C95–C97, C102, C104, C107, C109) come in two forms: for the default call, whose lags are known, and, in
`Props/GridAny.lean` and `Props/GridPerm.lean` (`…_any_weight`), for any of the three weights, any `alpha` and any lag arguments, about the lags of the result that are whole numbers of steps.

No property was found that cannot be expressed.

## 4. Trusted base

* Lean's kernel (all proofs are terms it checks; `decide +kernel` also lets the kernel evaluate).  No `sorry`, no axiom of our own, no
  `native_decide`, no `bv_decide`.
* Axioms: every theorem named in `MANIFEST.json` depends on `propext`, `Classical.choice`, `Quot.sound`, or fewer: `C03_flat_is_one_row` and
  `C11_neutral_kinds` on `propext`; `C49_iterator`, `C58_larger`, `C64_numbers`, `C68_selection` and `C73_correlator` on `propext` and `Quot.sound`; all others on the three.
* The rendering of the C++ and Python sources in `Model/`, and of the library behaviour it uses: `std::vector`, `std::lower_bound`,
  `std::getline`, `istream >> double` (libstdc++), pybind11's conversions, overload order, exception translation and `keep_alive`.
  Simplifications are stated at the definitions.
* Undefined behaviour is a value (`ub`): a theorem that a call "returns r" excludes it; nothing is claimed about what happens after it.

## 5. Findings about the code

Each has a theorem.

1. Flat values that are a multiple of the number of times are accepted and cut (C02); ragged tables read out of bounds (C08); the number of errors
   is not checked and `errors()` reads out of bounds (C09, also for the repository's own test file, C14).
2. A repeated time stamp makes the constructor of `Correlator` convert an infinity to `int` (C16).
3. `lag_resolution` finer than the smallest gap, or a range wider than the default, writes outside the result buffers (C21); a resolution of
   zero or below always does (C45).
4. With `int abs(int)` distances are truncated, and natural selection is not nearest (C20).
5. The normaliser narrows the values to `float` (C26, C53); constant data may give a number instead of NaN (C34).
6. NaN values are skipped in the mean and the normaliser but not in the sums (C35).
7. Fast selection raises or pairs the wrong samples (C36); negative lags pair the early samples with sample 0 (C31); correlations above 1 (C33).
8. `min_lag > 0` inserts lag 0; lag 0 can be missing (C18); an empty range raises `UnboundLocalError` on the Python path (C38).
9. `deltaT` reads a vector after `clear()` (C43); `clearCorrelation` leaves the number of lags, so that `correlations()` reads out of bounds (C41);
   a `CorrelationIterator` cannot be reused or be too small (C57, C58); after a fast selection that raised, natural selection on the same iterator selects
   too much (C72); a second argument that is no integer makes its constructor write out of bounds (C58).
10. A column array of floats as values makes the constructor read out of bounds (C63).
11. Unsorted times are accepted without notice (C56); a single sample yields NaN (C54); alpha = 0 yields NaN at lag 0 (C55).
12. Arbitrarily small changes of a time can change a correlation by a fixed amount (C78); with the default `alpha` the weights hardly matter (C81).
13. A computation cuts the result buffers to the number of lags found, so that a later computation over a wider range on the same `Correlator` writes out of
    bounds (C86).
14. In a file, a row whose value is `nan` is left out (C112), after an empty field the next column is taken for the value (C113), and dates or decimal commas are
    read as other numbers without notice (C115).
15. A NaN among the times makes most values NaN, at the ends it is undefined behaviour, and an infinite time makes a default call run for ever or write out of
    bounds (C119).
16. With decimal times the lag grid can miss zero by a rounding error; then both that lag and 0 are reported, and `lags[len(lags) // 2]` need not be 0 (C122).

## 6. Wrong programs

`seeded/mutants.py` lists edits of the model as realistic bugs would make them; `seeded/run.py` applies one in a scratch copy, rebuilds, and
replaces proofs that break by `sorry` until the copy builds.  A theorem counts as failed if its proof breaks or rests on one that
did.  `seeded/LOG.jsonl` has one line per attempt.
