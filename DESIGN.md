# Formal model of 3jane/tindicators in Lean 4

## 1. What is modelled

The code under study is `/repo` (C++; about 160 technical-analysis indicators, the ring buffers they share
and the generated dispatch table).  The model lives in `lean/Verif`:

| directory | content |
|---|---|
| `Verif/Core` | primitives: undefined behaviour as an outcome (`UB`), checked reads/writes, counting loops, number type, streams |
| `Verif/Model` | the model, function by function; every definition cites file and lines |
| `Verif/Spec` | small specifications, independent of the model (window sums, extrema, recurrences, …) |
| `Verif/Proof` | helper lemmas |
| `Verif/Props` | the property theorems, each with a non-vacuity example |

### Numbers
`TI_REAL` is `double`.  All models are polymorphic in a type `R` with operations and comparisons *without any
laws* (`Verif.Num`).  Theorems about control flow — return codes, number of outputs, absence of undefined
behaviour, chunking, stream = batch where the operations are performed in the same order — assume only `[Num R]`,
so they hold for IEEE doubles, NaN and infinities included.  Theorems about values
(mean, extremum, range, …) assume a linearly ordered field, that is exact arithmetic, unless their name ends in `_double`; in
them division by zero is excluded by hypothesis or by a guard of the code.
`Core/Binary64.lean` is an executable model of IEEE binary64 (`F64`: NaN, signed infinities, signed numbers in units of 2^-1074;
every operation rounds the exact result to nearest, ties to even, with overflow to infinity and gradual underflow). It is an
instance of `Num`, so the same models run in it; theorems ending in `_double` and `_double_violates` (Props/Doubles*) are about
it. `Props/Rounding` proves that no double is closer to the exact result than the one an operation returns, `Proof/BinaryExact`
that it computes exactly with integers up to 2^53 in magnitude (`IntExact F64`), so theorems that assume only `IntExact` hold for it
too (`Props/DoublesAny` reads the stream theorems at `F64`). It assumes the compiler neither fuses a multiplication with an addition nor keeps excess precision; `sqrt` is correctly rounded,
the other `<cmath>` functions are an arbitrary parameter (`Libm`). The payload of a NaN is not modelled.
`<cmath>` functions (`sqrt`, `log`, `atan`, …) are arbitrary functions unless a theorem states what it needs.

### Memory and undefined behaviour
A run is a value in `Except UB _`.  Reading an input outside `[0,size)`, writing more than `size - start` values,
reading a never-written cell, failing a library `assert`, or overflowing an `int` conversion is an `error`
outcome, different from every value.  Proving `run = ok …` therefore includes absence of these.

### Options, inputs, outputs
An options pointer is a function `Nat → R`; `(int)options[k]` is `toInt` (an error outside the `int` range).
Inputs are lists of rows (one row = the values of all input arrays at one index: the API requires equal sizes).
Outputs are the list of output tuples in the order written.

### Streams
`stream_run` is modelled as the list of its `for (; cond(progress) && i < size; ++i, ++progress) body` loops
(`Phase`); `session` is `stream_new` followed by one `stream_run` per chunk.

### Memory
Values and memory are modelled apart: the value models assume that every allocation succeeds, `Model/Alloc.lean` follows the
blocks `stream_new` and `stream_free` own under an arbitrary pattern of failing allocations, and `Model/Scratch.lean` does the
same for the scratch blocks of batch functions.

### Conventions a reader should know
* In exact-arithmetic theorems `x / 0 = 0` (Lean's convention). Where the C code has no guard it would produce NaN or an
  infinity; a theorem that could be affected says so or excludes a zero divisor.
* `std::max`, `std::min`, `fmax`, `fmin`, `MAX`, `MIN` are written out as the comparison they perform (they differ in which argument
  they return when the comparison fails).
* A variable initialised with an infinity that is only compared with prices is `none`; the comparison is taken to succeed.
* `std::multiset` is the sorted list of its elements, `std::nth_element` is a full sort (one of its legal outcomes; only the
  selected element is read afterwards). Both need totally ordered prices, that is no NaN.
* A loop `for (int i = 0; i < v; ++i)` with a real bound `v` runs `toInt (ceil v)` times; a `std::vector` of real size `v` has
  `toInt v` cells; sizes beyond `int` are reported as out of range although `size_t` is wider.
* Integer indices that a stream keeps in a `TI_REAL` (cmi, mesastoch) are integers.
* Reference implementations whose text is that of the batch function (arsi, gf1 to gf4, mgdyn, pwma, hd) have no model of their own.
* A constant computed once per run from options is recomputed per bar where this shortens the model; the comment says so.

### Not modelled
Floating-point rounding outside Props/Doubles; negative `size`; aliasing of input and output arrays outside Model/InPlace; the C# side of
the `lean` binding other than the generated classes (marshalling, the LEAN framework itself); the header text
`codegen.py` writes (the generated table is modelled from `indicators.yaml`) and `docsgen.py`; the parsing of test files, and benchmarks.

### Agreement with the test vectors
`tools/conformance.py` evaluates the batch models, with Lean's `Float` as the number type, on the vectors in `/repo/tests/smoke-testcases`:
218 cases of 109 indicators, all within the tolerance of the project's own comparator. This is a test of the transcription, not a proof.

## 2. Method
* batch loop → `forUp` with an explicit trajectory (state before iteration i); the trajectory is an operational
  recurrence valid without laws; numeric claims are then proved about the recurrence by induction.
* stream → one simulation step per bar relating the stream state to the history, lifted to every chunking by the
  generic theorem about `Phase` lists.
* stateful buffers → refinement to "the last N values".
* table lookup → binary search invariant over any sorted table, plus kernel computation over the actual table.
* where the code violates a property: the negation is proved with a concrete witness and the property is proved
  under the additional condition (`…_partial`).

## 3. Trusted base
Lean's kernel; the axioms `propext`, `Classical.choice`, `Quot.sound` (at most, per theorem); the faithfulness of
the hand-written model to the cited source lines; Mathlib definitions used in statements (`Finset.sum`, ordered
fields).  Runs on literals are evaluated by the kernel: `kernel_decide` (Core/Eval.lean) hands the kernel the
proof `of_decide_eq_true (Eq.refl true)` without checking it in the elaborator first.  No own axioms, no `sorry`, no `native_decide`/`bv_decide`.

## 4. Per property
How each is modelled and proved; the theorem names and what is missing of a partial one are in MANIFEST.json.

* **C01 Name lookup is exact** (proved) — `Model/Table`: `ti_find_indicator`'s bisection with `strcmp` over an arbitrary sorted table; invariant "the name, if present, lies in [imin, imax]"; sortedness of the shipped table by kernel evaluation.
* **C02 A stream is served by the indicator that made it** (proved) — `Model/Table`: table, enum and the index stored in a stream; the enum constant of X is X's position; induction over the calls of a session.
* **C03 Splitting the input does not change the stream's output** (proved) — `Core/Stream`: generic theorem about lists of phases whose conditions only ever switch from true to false; instantiated for all 55 streams, any arithmetic.
* **C04 Progress accounting** (partial) — Same engine: progress after n bars, and the number of values written, for every accepted option vector; the streams that break it are witnesses.
* **C05 The ring buffer remembers the last N values** (proved) — `Model/Ring`: cells + position; refinement to the list of assigned values by induction over assignments.
* **C06 Ring buffer extremum search** (proved) — `Model/Ring`: `std::max_element` over the (at most two) reversed ranges; maximality and age by induction over the scan.
* **C07 The summing buffer keeps the sum of the last `size` values** (proved) — `Model/TiBuf`: cells as `Option`, running sum; invariant over pushes.
* **C08 Local buffers laid out in one block do not overlap** (partial) — `Model/LocalBuf`: the info array and the flat block; disjointness of ranges, refinement to one list of pushed values per buffer, every interleaving.
* **C09 Element-wise functions** (partial) — `Model/Simple`: one loop; any arithmetic.
* **C10 Bar transforms** (proved) — `Model/Simple`: one loop; any arithmetic.
* **C11 sum/sma: moving sum and mean** (proved) — `Model/Sum`: trajectory = sum of a window, by induction; stream by one-bar simulation.
* **C12 ema: recurrence, bounds, constants** (proved) — `Model/Ema`: recurrence, then bounds by induction in an ordered field.
* **C13 dema/tema/trix are compositions of ema** (partial) — `Model/Ema`: loops refined to compositions of the ema recurrence of the specification.
* **C14 wilders/wma/vwma: weighted averages** (partial) — `Model/Window`, `Model/Ema`: running numerator = weighted window sum, by induction.
* **C15 min/max: window extremum** (proved) — `Model/Extremum`: invariant "the tracked index is the latest extremum of the window".
* **C16 stoch/willr/aroon/aroonosc: definition and range** (partial) — `Model/Extremum`: from C15's tracker; ranges in an ordered field.
* **C17 rsi/cmo/mfi/rmi: range** (partial) — `Model/Window`, `Model/Volume`, `Model/Flow`: smoothed gains and losses are non-negative; ranges follow.
* **C18 True range family** (partial) — `Model/Range`: true range, Wilder's smoothing; stream in exact arithmetic.
* **C19 Directional movement family** (partial) — `Model/Direction`: recurrences and ranges.
* **C20 Cumulative volume indicators** (proved) — `Model/Volume`: running totals over a prefix, by induction.
* **C21 var/stddev/bbands** (proved) — `Model/Stats`: running sums = window sums; variance as a sum of squares.
* **C22 Linear regression family** (partial) — `Model/Trend`: normal equations of the least-squares line.
* **C23 macd/apo/ppo: differences of emas** (proved) — `Model/Ema`: differences of ema recurrences.
* **C24 lag/mom/roc/rocr/decay family** (proved) — `Model/Simple`: one loop with a lag.
* **C25 crossany/crossover** (proved) — `Model/Simple`: one loop.
* **C26 psar stays on the right side** (proved) — `Model/Adaptive`: invariant over bars, any option values.
* **C27 Adaptive averages are convex** (partial) — `Model/Adaptive`, `Model/Cycle`, `Model/Fractal`: weights in [0,1] imply bounds; counterexample for vidya.
* **C28 er is in [0,1]** (partial) — `Model/Smooth`: triangle inequality over the window.
* **C29 hd and arsi: definition, range, scale** (proved) — `Model/Cycle`: clamps of the period give the range for arbitrary atan; scale invariance by simulation of two runs.
* **C30 Composed averages** (partial) — `Model/Weighted`, `Model/Smooth`: running sums refined to the compositions.
* **C31 Channel indicators** (partial) — `Model/Chan`: trackers refined to window extremes; streams through ring search (C06).
* **C32 No out-of-bounds access for accepted options** (partial) — `Contract` (Spec): one law-free theorem per indicator, for every accepted option vector and every input; violations as theorems.
* **C33 Invalid options are refused without side effects** (partial) — `Refuses`, `NewRefuses` (Spec): per indicator; disagreements between batch and stream as theorems.
* **C34 Causality** (partial) — Third component of `Contract`: output on a prefix is a prefix of the output.
* **C35 stream equals batch** (partial) — `StreamEqBatch` (Spec): simulation per bar, lifted to every chunking; any arithmetic where the operations agree, exact otherwise.
* **C36 ref equals batch** (partial) — The reference algorithm modelled on its own and compared with the batch model.
* **C37 Fractional options behave like their integer part** (partial) — Batch, start and stream depend on an option only through its truncation; witnesses where they do not.
* **C38 Allocation failure leaves nothing behind** (partial) — `Model/Alloc`: a command list per stream (allocate, guarded block, delete, …) run against an arbitrary allocator; ledger of live blocks.
* **C39 Recursive low-pass filters** (partial) — `Model/Filters`: recurrences; unit gain from the sums of coefficients.
* **C40 Python binding pads to the input length** (partial) — `Model/Python`: the call wrapper as a function on lists.
* **C41 Volume oscillators** (proved) — `Model/Volume`: recurrences over the specification's ema.
* **C42 ao, qstick, dpo** (partial) — `Model/Volume`: window means.
* **C43 cci, cvi, mass, ultosc, abands, msw** (partial) — `Model/Osc`: buffers refined to windows (C07), then definitions.
* **C44 Recursive filters are linear and time invariant** (proved) — `Model/Filters`: induction over bars for a linear combination of two runs and for delayed input.
* **C45 Momentum indicators tsi and rmi** (partial) — `Model/Flow`: recurrences of doubly smoothed series; ranges.
* **C46 Volume-weighted averages and flows: vwap, evwma, fi, pvt** (partial) — `Model/Flow`: running sums = window sums; convexity.
* **C47 Keltner channel, vortex and McGinley dynamic** (partial) — `Model/Flow`: recurrences; vortex as ratios of window sums.
* **C48 Henderson average and recursive median filter** (partial) — `Model/Rank`: weights per row sum to one by kernel evaluation of the whole table; multiset = sorted window.
* **C49 Ahrens, exponential Hull, inverse-distance, Leo and sharp modified averages** (partial) — `Model/Average`: closed forms of running sums, linear reproduction.
* **C50 Moving standard deviation and Ehlers' distance coefficient filter** (partial) — `Model/Average`: window variance; distance weights.
* **C51 Projection bands and projection oscillator** (partial) — `Model/Regress`: regression slope of the window, extreme of projected highs and lows.
* **C52 Regression-based relative volatility index** (partial) — `Model/Regress`: slope as in C51, recurrences of gains and losses.
* **C53 pfe is the smoothed polarized efficiency** (partial) — `Model/Trail`: running path length = window sum.
* **C54 cmi is the logarithmic share of the true range** (partial) — `Model/Trail`: tracker over the ring of true ranges.
* **C55 mhlma averages the middle of the recent range** (partial) — `Model/Trail`: tracker over a growing, then sliding window.
* **C56 hurst is the rescaled-range exponent of each window of returns** (partial) — `Model/Fractal`: running sum and ring of returns refined to the window.
* **C57 mesastoch smooths the stochastic of the filtered price** (partial) — `Model/Fractal`: two filters and a tracker over filtered prices.
* **C58 frama adapts to the fractal dimension of the window** (partial) — `Model/Fractal`: scan of halves, trackers over a deque.
* **C59 hf is the Hampel filter of the newest price** (partial) — `Model/Hampel`: multiset = sorted window, deviations sorted.
* **C60 hfema filters exponential averages** (partial) — `Model/Hampel`: as C59 over the ema recurrence.
* **C61 hfsma filters moving averages** (partial) — `Model/Hampel`: as C59 over window means.
* **C62 Batch calls give back their scratch memory** (partial) — `Model/Scratch`: a step list per batch function run against an arbitrary allocator.
* **C63 Oscillator ranges survive rounding** (partial) — `Core/Binary64`: an executable model of IEEE doubles; gains, losses and ranges are kept non-negative by rounding, a rounded ratio of ordered numbers stays in [0,1]; violations by kernel evaluation of a run.
* **C64 Averages stay between the smallest and the largest input after rounding** (partial) — `Core/Binary64`: one smoothing step stays between bounds because the bounds are doubles and rounding is monotone; violations by kernel evaluation of a run.
* **C65 Non-negative measures stay non-negative after rounding** (partial) — `Core/Binary64`: "NaN, +inf or non-negative" is preserved by every operation of the loops; violations by kernel evaluation of a run.
* **C66 Streams reproduce the batch result bit for bit** (partial) — The law-free stream = batch theorems instantiated at doubles; violations by kernel evaluation of both runs.
* **C67 Extremes and sums of whole numbers are exact in double arithmetic** (proved) — `Core/Binary64`: comparisons of doubles are exact; sums of whole numbers below 2^53 round to themselves, by induction over the sliding sum.
* **C68 A streaming C# class shows the batch value of the newest bar** (proved) — `Model/CSharp`: the generated class as a state machine over a stream; induction over bars from the stream = batch theorems.
* **C69 A windowed C# class shows the value of the newest window** (partial) — `Model/CSharp`: the rolling window and the shared temporary of the generated class; lists.
* **C70 Python arguments reach the parameter they are meant for** (partial) — `Model/PyArgs`: the argument loop against Python's own binding rules (`Spec/PyArgs`); names by kernel evaluation over the table.
* **C71 A passing smoke test vouches for all variants** (partial) — `Model/Testing`: comparator and `run_one`'s count of failures; case analysis.
* **C72 Overwriting the input with the output** (partial) — `Model/InPlace`: arrays whose first cells were overwritten; what is not overwritten is still the input, so loops that read at or after the write position agree; counterexamples for the others.
* **C73 How many bars a stream can be fed** (partial) — `Model/Counter`: sessions with a checked 32-bit counter; the counter moves by one per bar.
* **C74 Bounded input, bounded output** (partial) — Unrolling the recursion often enough turns it into a contraction (`Proof/Gain`, one kernel computation per table row); divergence by a quadratic form that grows along the recursion.
* **C75 The period of a smoothing filter is its cut-off** (partial) — The steady cycle solves the recursion and the rest dies out (`Proof/Decay`); its power is a quotient of two polynomials in `cos (2π/period)`, bounded on a rational interval that a sign test of Chebyshev values puts around the cosine (`Proof/Cutoff`).
* **C76 What the outputs do when the price stops moving** (partial) — Limits in an Archimedean ordered field: contractions with a fading disturbance, second-order recursions by their poles, tables by the certificates of C75 (`Proof/Converge`).
* **C77 Changing the unit or the level of prices and the unit of volumes** (partial) — Each value theorem is applied to both inputs; the change of units is moved through sums, extrema, averages and recursions (`Proof/Units`, `Proof/UnitsBars`), and through best lines, medians and projections by their uniqueness.
* **C78 How long the outputs remember old bars** (partial) — Windows: the value theorem is applied to the input and to its tail, and the indices are shifted (`Proof/Memory`). Fading: a calculus of series that come together geometrically (`Proof/Fading`: sums, windows, first-order recursions; `Proof/FadingFilters`: second order by a quadratic form, tables by their halving certificates). Violations: two one-bar histories whose outputs keep a fixed distance.
* **C79 The market turned upside down** (partial) — The value theorem is applied to the input and to its mirror image; `Proof/Mirror` says what a reflection does to window means, extremes, gains and losses, ranges, directional moves and the trailing stop. Fits, medians and projections by uniqueness (`Props/MirrorFits`). Violations: an input that is its own mirror image but whose output is not.
* **C80 Rounding errors stay small** (proved) — Spec/Accuracy measures the distance between a double and the exact rational value. One rounded operation is off by `2^-53` of its result (`Rounds.near`); a step of a recursive average shrinks the old error by `1 - k` and adds a few units, so a multiple of `1/k` units is an invariant (`blend_near`); running sums by induction on the bars (`slide_near`). Violations: runs in binary64, one of them by induction on the number of zeros.
* **C81 Higher prices, no lower average** (proved) — Spec/Raise orders rows price by price (`Below`) and says `Rises`. From the value theorems: every weight of the average is nonnegative, so each spec function is monotone (`winMean_le`, `ema_le`, `weighted_le`, …). Violations: two series that differ in one price, run in the kernel.
* **C82 Outputs of a sum of series** (proved) — `AddsUp` in Spec/Raise. From the value theorems: the spec functions are additive (`ema_add`, `weighted_add`, …); the regression lines because the line of best fit is unique and its normal equations are linear.
* **C83 Related functions agree** (proved) — Props/Related states equations between the output lists of calls (`Gives`), with no specification function in the statements. Proved from the value theorems of all functions involved; the regression lines by uniqueness of the best fit.
* **C84 Regenerating the sources loses nothing** (partial) — Model/Codegen models the file-creating loop of codegen.py over a directory of texts, with Python's leaked variables and exceptions as outcomes. Kept text is a `Sublist`; completeness and idempotence by induction over the entries.
* **C85 What a clean run of the fuzzer means** (proved) — Model/Fuzzer models `stress` as the list of calls it makes. Coverage is the base-4 representation of the counter; the clean run is an equivalence with the absence of undefined behaviour in those calls.
* **C86 Streams alive at the same time do not disturb one another** (proved) — Model/World adds a heap of stream objects and a list of calls to the dispatch of Model/Table. Induction over the history with the invariant that every object is the one its own calls lead to.
* **C87 A missing price is neither hidden nor passed on for ever** (partial) — Spec/Missing says `Poisons`, `Recovers` and `Hides` of a batch call on doubles. The closed forms of the running values (`_run` theorems, any arithmetic) are read with a value that absorbs every operation and compares with nothing (`HasNan`); induction over the bars. Hidden ones by runs in binary64.
* **C88 Running out of memory is answered with a code, not an exception** (partial) — The allocation model of C38 (`Model/Alloc.lean`: which requests each stream_new makes, in which order, inside which handler). `Spec/Report.lean` says when an answer is right: TI_OUT_OF_MEMORY if and only if a request made during the call failed, and no exception. Proved for all environments by induction over the statements of the constructor; the violations are shown by a single failing request.
* **C89 How far an average trails behind a steady trend** (partial) — `Spec/Lag.lean` says what it means to trail by `L` bars: exactly (`Lags`, once the window lies on the line) or in the limit (`LagsInTheEnd`). Proved from the value theorems: the weighted sums of a line in closed form by induction over the window; the recursive averages by the convergence lemma of C76 applied to the output minus the slope.
* **C90 What a price that repeats itself does to the outputs** (partial) — `Spec/Repeat.lean`: bars that repeat (`Cycles`), outputs that repeat exactly, in the limit, or move by the same amount or factor per cycle. For windows it follows from the value theorem and the window theorem of C78 (leaving out old bars leaves out old outputs); for recursive functions the difference of two values one cycle apart obeys the recursion without input and dies out.

## 5. Where code and property disagree
One line per theorem that proves a disagreement (section generated by `tools/design.py` from the comments of the theorems).

* `sma_accurate_window_violates` — The sum of two prices and their average go wrong by a single large price and stay wrong: long after it has left the window, with nothing but zeros in the input, every output is -1 and -1/2. So the bound of `sma_accurate` has to refer to the largest price since the first bar, not to those in the window.
* `var_accurate_violates` — Two prices that differ by 1 have the variance 1/4; `var` writes 0 for 94906267 and 94906266, because it subtracts two numbers of which all digits agree. So do the standard deviation and the band width made of it.
* `vidya_violates` — With exactly `long_period - 1` bars vidya reads one bar past the input.
* `vidya_bounds_violates` — Six bars at 2, then 0, then 4: vidya 2/8/1 jumps to 8, twice the largest price.
* `ahma_stream_overflow` — The largest period: `period + 1`, the size of the stream's ring, is not an `int`.
* `ehma_stream_overflow` — The largest period: the stream's divisor `period + 1` is not an `int`.
* `emsd_overflow` — The largest averaging period overflows as soon as there are more than `period` bars.
* `shmma_overflow` — With a longer period, any input as long as the period overflows an `int`.
* `ehma_ref_ne_batch` — With period 1 the reference implementation passes 1/2 to `ti_ema`, ignores that it refuses, and goes on with zeros.
* `idwma_ref_violates`, `shmma_ref_violates` — With a fractional period the reference implementation reads before the input.
* `lma_ref_violates` — Inputs shorter than the period make the reference implementation ask for a vector of negative size; a fractional period makes the averages write past it.
* `emsd_ignores_ma_period` — The averaging period has no effect on the output.
* `edcf_violates` — A length with a smaller fraction makes the first output read past the stored prices.
* `ahma_ref_ne_batch`, `emsd_ref_ne_batch` — A fractional period: the batch call truncates it, the reference implementation divides by it.
* `lma_stream_ne_batch` — The stream of lma does not truncate the period where it divides.
* `csharp_default_violates` — A class with several inputs ignores all of them but the last: whatever the other inputs are, it shows the same.
* `csharp_ema_violates` — The windowed class of ema shows the newest price, not an average, unless its window is made larger: the start index of ema is 0, so its window holds one bar.
* `csharp_medprice_violates` — medprice of a bar with high 3 and low 1 is 2; the class shows 1.
* `pc_violates` — With period 1 the batch call reads an index it has not assigned, whatever the arithmetic.
* `ichi_overflow` — Accepted periods whose warm-up does not fit an int overflow.
* `ichi_ref_violates` — With fewer bars than the longest window the reference forms pointers past its arrays.
* `ce_violates` — With period 1 one value fewer than announced is written.
* `ce_ref_ne_batch` — With period 1 the reference writes a value for the first bar and the batch call does not.
* `smi_one_violates` — A window of one bar: the first bar gives no output and the second reads averages that have not been assigned.
* `smi_violates` — A window length that is not an integer: the first bar compares with a variable that has not been assigned.
* `codegen_first_violates` — If the first indicator has no source file yet, the script dies after writing it: `tbd` is unassigned.
* `codegen_stale_violates` — A new indicator that follows one to which a stream had to be added gets the other's stream as well.
* `codegen_old_violates` — With `--old`, a section missing in a C++ source makes the script die: it opens the C source, which is not there.
* `codegen_ref_violates` — The declaration of a reference implementation has no space between the macro and the type.
* `ppo_rests_violates` — A price that falls to 0 and stays there leaves ppo with short period 1 at -100 for ever.
* `lf_follows_violates` — lf with a damping of one answers every input with zeros.
* `vidya_follows_violates` — So it need not come near the price: after one step from 0 to 1 it stays at `alpha` for ever (periods 2 and 2).
* `vidya_fades_violates` — So vidya never forgets: after the histories 0 and 1 and prices of 1 since then, it stays at `alpha`, or at 1 (C78).
* `dx_fades_violates` — Nor does dx: after one rise, or none, and no move since then, it stays at 100, or at 0 (C78).
* `evwma_follows_violates` — With `gamma` times the period below one half it leaves every bound after a single step of the close, although close and volume rest.
* `mgdyn_follows_violates` — For every option there is a fall of the price after which mgdyn runs away although the price rests: to 1 from any `K ≥ 3` with `K⁴ ≥ 4·option`. With option 14, a fall to a third will do.
* `stream_counter_violates` — The first bar too many: a stream fed `INT_MAX + start + 1` bars or more, in whatever chunks, overflows its counter, whatever the prices are.
* `gf3_cutoff_violates` — gf3 takes every coefficient from one table, so its period changes nothing, and at no period is the power halved.
* `gf4_cutoff_violates` — gf4 passes less than half the power of the cycle of its period for periods 8 to 30 (above, it passes no cycle at all: it diverges).
* `bf2_cutoff_violates` — bf2 with a period of at least 12 roughly halves the power of a cycle of its period. Partial: not below.
* `bf3_cutoff_violates` — bf3 with a period of at least 14. Partial: not below.
* `arsi_overflow` — From the sixth bar on, a huge cycle part overflows `int`.
* `arsi_stream_violates` — For a cycle part below 0.06, which batch and stream both accept, the stream fails an assertion at its sixth bar while the batch call succeeds.
* `adx_overflow`, `adxr_overflow` — For longer periods the start index overflows.
* `dm_exclusive_violates` — Where the high rises exactly as much as the low falls, both movements are reported as positive.
* `pc_stream_double_violates` — pc(2) of three bars, one of whose highs is not a number.
* `ichi_stream_double_violates` — ichi(1, 2, 2) of four such bars.
* `mhlma_stream_double_violates` — mhlma(2, 2) of four prices.
* `smi_stream_double_violates` — smi(2, 1, 1) of four bars.
* `emsd_stream_double_violates` — emsd(3, 1) of 0.9, 0.9, 0.7, with a `pow` that squares: the batch call divides by the period, the stream multiplies by its reciprocal.
* `sma_bounds_double_violates` — sma(1) of 1.6, 1.2 writes a value below 1.2.
* `wma_bounds_double_violates` — wma(2) of 0.4, 0.4 writes a value that is not 0.4 but below or above it.
* `trima_bounds_double_violates` — trima(1) of 1.6, 1.2 writes a value below 1.2.
* `wilders_bounds_double_violates` — wilders(1) of 1.8, 0.6 writes a value below 0.6.
* `ema_bounds_double_violates` — ema(1) of 1.8, 0.6 writes a value below 0.6: the bound of 2 on the period in `ema_bounds_double` is needed.
* `vwma_bounds_double_violates` — vwma(1) of closes 15.3, 52.9 writes a value above 52.9.
* `typprice_bounds_double_violates` — typprice of a flat bar at 0.3 is below 0.3.
* `cmo_range_double_violates` — cmo(1) of 0.8, 2.4 … leaves [-100, 100].
* `er_range_double_violates` — er(2) of 0.3, 1.6, 2.4 is above 1.
* `vhf_range_double_violates` — vhf(2) leaves [0, 1].
* `mfi_range_double_violates` — mfi(2) falls below 0.
* `cmf_range_double_violates` — cmf(1) falls below -1.
* `stoch_range_double_violates` — stoch(3, 2, 1): %K and %D exceed 100.
* `di_range_double_violates` — di(2): +DI exceeds 100.
* `adx_range_double_violates` — adx(91) of a steady rise exceeds 100 (`dx`, which it averages, does not).
* `aroon_range_double_violates` — aroon(11): the up line exceeds 100.
* `aroonosc_range_double_violates` — aroonosc(11) falls below -100.
* `ultosc_range_double_violates` — ultosc(1, 2, 3) exceeds 100.
* `var_nonneg_double_violates` — var(1) of 0.8, 2.4 writes a negative variance.
* `stddev_nonneg_double_violates` — stddev(1) of 0.8, 2.4 writes a negative standard deviation.
* `sma_stream_double_violates` — sma(1) of 5.8, 6.4: the stream and the batch call write different doubles.
* `atr_stream_double_violates` — atr(3) of three bars.
* `ehma_stream_double_violates` — ehma(1) of 0.9, 0.6.
* `hwma_stream_double_violates` — hwma(7) of seven prices.
* `lma_stream_double_violates` — lma(2) of 2.9, 3.6.
* `vwap_stream_double_violates` — vwap(1) of two bars.
* `fi_stream_double_violates` — fi(2) of a falling price without volume: the batch call writes `0`, the stream `-0`.
* `rmi_stream_double_violates` — rmi(2, 1) of a price that is not a number: `MAX` keeps it, `std::max` replaces it by `0`.
* `trunc_out_of_range` — `trunc` violates C09 outside the range of `int`: the first such input is undefined behaviour.
* `trunc_violates` — The negation of C09 for `trunc`, on a concrete series: 3e9 does not fit an `int`.
* `dema_overflow` — The other periods: the computation of the start index overflows.
* `tema_overflow` — For longer periods the computation of tema's start index overflows.
* `zlema_violates` — zlema violates C32 for the accepted periods 1 and 2: whatever the input (even an empty one) it reads `input[-1]`, and `ti_zlema_start` returns -1.
* `trix_period_one` — trix violates C13 for period 1: the average of average is not seeded, so the first value is 100 whatever the change (here 4 → 5, i.e. 20 %).
* `stoch_overflow`, `stochrsi_overflow` — Otherwise the start index overflows, whatever the input.
* `rsi_fades_violates`, `obv_fades_violates`, `ad_fades_violates`, `wad_fades_violates`, `nvi_fades_violates`, `pvi_fades_violates` — After one rise, or one fall, and no move since then, rsi stays at 100, or at 0.
* `tsi_fades_violates` — After one rise, or one fall, and no move since then, tsi stays at 100, or at -100.
* `decay_fades_violates` — While the price falls by 1 a bar, decay goes on counting down from the same old bar.
* `rmi_fades_violates` — After one rise the relative momentum index stays at 100 for ever, after one fall at 0.
* `ema_window_violates` — The exponential average never quite leaves an old bar behind.
* `gf4_short_violates` — gf4 reads its first five bars without looking at the size: with fewer it reads past the end of the input.
* `gf3_ignores_period` — gf3 ignores its period: every accepted period gives the same filter, the mean of the new bar and the last three outputs.
* `vi_short_violates` — vi rejects every input of at most `period` bars as if the option were wrong, instead of writing nothing.
* `evwma_stream_overflow` — … with which `period + 1` overflows.
* `pvt_ref_violates` — `ti_pvt_ref` reads the first two bars whatever the size.
* `fi_ref_violates` — `ti_fi_ref` does not check its option: a period below 1 is accepted and the unsmoothed force returned.
* `rmi_stream_overflow` — A stream's `lookback + 1` does not fit an `int` for the largest lookback.
* `rmi_violates` — With a fractional lookback period rmi writes nothing on an input of `start + 1` bars, and a stream writes one value.
* `kc_stream_violates` — A stream of kc accepts periods between 0 and 1, which the batch call refuses.
* `pvt_stream_violates` — pvt: at a bar without volume, and at the next one, the batch call falls back to 0; the stream carries on.
* `vwap_ref_violates` — The reference of vwap writes a value even when there are fewer bars than the period, past an output of size 0.
* `evwma_ref_ne_batch` — The reference of evwma accumulates volumes in an `int`, so fractions of volumes are lost.
* `mesastoch_overflow` — The two largest periods: `period + 2` is not an `int`.
* `mesastoch_violates` — The filter needs three cells of a ring that has `period` cells: with periods 1 and 2 the third bar fails an assertion.
* `mesastoch_stream_violates` — The stream fails the same assertion with periods 1 and 2.
* `hurst_violates` — With a fractional period the loop asks for one return more than are kept: the bar after the first full window fails an assertion.
* `hurst_stream_violates` — The stream fails the same assertion with a fractional period.
* `hurst_ref_violates` — With a fractional period and more than `p` values the reference reads before the input array.
* `mesastoch_ref_violates` — With fewer than `p + 2` prices the reference reads past the end of its input.
* `frama_stream_ne_batch` — An average period below 2 is refused by the batch call and accepted by the stream.
* `frama_violates` — With a fractional period above an even number the first loop writes one value too many, so that with more bars than that the last write is past the end of the output.
* `bf2_fractions_violates` — bf2's start index is 1 for period 4 and 2 for period 4.95.
* `bf3_fractions_violates` — bf3's start index is 1 for period 3 and 2 for period 3.5.
* `dwma_fractions_violates` — dwma's start index is 2 for period 2 and 3 for period 2.5.
* `edcf_fractions_violates` — edcf's start index is 3 for length 2 and 4 for length 2.5.
* `copp_fractions_violates` — copp writes one value fewer when the longer period is 1.5 instead of 1.
* `smi_fractions_violates` — smi reads an uninitialised value when its window is 2.5 instead of 2.
* `rmi_fractions_violates` — rmi's batch call writes nothing for two bars when its lookback is 1.5 instead of 1.
* `hurst_fractions_violates` — hurst fails an assertion when its period is 2.5 instead of 2.
* `frama_fractions_violates` — frama writes past its output when its period is 2.5 instead of 2.
* `lma_fractions_violates` — The stream of lma divides by the period with its fraction.
* `pfe_fractions_violates` — The stream of pfe smooths with the EMA period with its fraction.
* `posc_fractions_violates` — The stream of posc smooths with the EMA period with its fraction.
* `pbands_fractions_violates` — The stream of pbands uses the period with its fraction.
* `rvi_fractions_violates` — The stream of rvi computes its constants from the period with its fraction.
* `fuzz_violates` — The fuzzer passes dpo, computed with doubles, although dpo reads out of bounds for the periods 1 and 2 on every series that is long enough: none of the four option values is 1 or 2.
* `lf_gain_violates` — lf accepts every damping factor above 1, and then even a price that never moves sends the output beyond every limit.
* `gf4_gain_violates` — gf4, periods 32 to 40: prices between 1 and 3 that stop moving after five bars send the output beyond every limit.
* `rmta_gain_violates` — rmta takes any `beta`; above 1 even a price that never moves sends the output beyond every limit.
* `hf_overflow` — From `k = 2^30` on `2*k` overflows, in the batch call, the stream and the reference.
* `hfema_overflow` — From `k = 2^30` on `2*k` overflows in hfema.
* `hfsma_overflow` — The warm-up `sma_period-1 + 2*k` must fit in an `int`.
* `hfsma_stream_violates` — The stream keeps `2k+1` prices but subtracts the one `sma_period-1` bars back: with a longer average it fails an assertion as soon as the first mean is complete.
* `bars_in_place_violates` — tr over the close, atr and natr with period 1 over the close, and nvi and pvi over either input read what they have overwritten.
* `stream_in_place_violates` — Streams that read a bar again after writing go wrong when they overwrite the series (or the close).
* `batch_in_place_violates` — These read the bar that leaves their window, or an older one, after its place was overwritten.
* `windows_in_place_violates` — dm with period 1, vwma, qstick, vosc and the other regressions read a bar that they have overwritten.
* `localbuf_at1_violates` — C08: `BUFFER_AT1` adds the size to the index before it reduces the sum, so the newest value of a full buffer of more than 2^30 cells cannot be read: the sum overflows `int`. (`ps` may be any pushes that end with that buffer full for the first time.)
* `rsi_mirror_violates`, `stoch_mirror_violates` — A price that does not move counts as falling: rsi is 0, not 50.
* `willr_mirror_violates`, `rmi_mirror_violates` — Bars without a range count as closing at the top.
* `psar_mirror_violates` — Two equal bars start an up trend.
* `kvo_mirror_violates` — Before the first change of high + low + close kvo counts the volume as bought.
* `pfe_mirror_violates` — pfe counts an unchanged price as a fall.
* `fisher_mirror_violates` — fisher counts a window without a range as closing at its bottom.
* `rvi_mirror_violates`, `natr_mirror_violates`, `abands_mirror_violates` — rvi is 50 until the first bar above its line, whatever the bars below theirs.
* `mfi_mirror_violates`, `roc_mirror_violates` — The flow of a bar is its price times its volume, so a rise from 1 to 2 weighs more than the fall back.
* `decay_mirror_violates`, `edecay_mirror_violates` — decay follows every rise at once and every fall slowly.
* `rsi_missing_violates`, `cmo_missing_violates` — rsi and cmo compare with a missing price, find no move, and go on.
* `max_missing_violates`, `min_missing_violates` — max and min pass over a missing price.
* `decay_missing_violates`, `edecay_missing_violates` — decay and edecay take it for a low price, unless it is the first.
* `obv_missing_violates` — obv takes a missing close for an unchanged one.
* `tr_missing_violates`, `atr_missing_violates` — The true range leaves out a missing close, and so does atr.
* `cci_overflow` — cci with a period whose start index `(period - 1) * 2` is not an `int`.
* `cvi_overflow` — cvi with a period for which `period * 2` is not an `int`.
* `cvi_violates` — cvi accepts period 1, but then reads the lag buffer before anything was put into it.
* `mass_overflow` — mass with a period whose start index `16 + period - 1` is not an `int`.
* `ultosc_violates` — With medium = long ultosc subtracts the bar it has just added, and after 2 * long bars it reads the cell before the buffer.
* `abands_ref_violates` — Given fewer than `period - 1` bars the reference implementation fails its own assertion.
* `abands_ref_ne_batch` — Where high + low is negative the reference implementation differs from abands.
* `python_arguments_violates` — Where a Python function would raise a `TypeError`, the binding does not: more arguments than parameters are dropped without a word.
* `python_unknown_keyword_violates` — A keyword argument that names no parameter of the indicator is ignored as well: only the values of the parameters matter.
* `python_keyword_violates` — The option of rema is called `lambda`: `ti.rema(series, lambda=…)` is a syntax error.
* `python_series_violates` — Both inputs of add have the same name: passed by name, they are the same series.
* `python_typename_violates` — `str(1e16)` is `1e+16`: with such an option the name is not an identifier and `namedtuple` raises `ValueError`.
* `python_short_violates` — A series shorter than the start index raises `ValueError` instead of giving an all-NaN result of its length: the promise of C40 fails there.
* `python_short_column` — A later column shorter than the first is silently completed with zeros: no error is raised.
* `dema_rises_violates`, `tema_rises_violates`, `zlema_rises_violates`, `hma_rises_violates`, `linreg_rises_violates`, `tsf_rises_violates`, `linregintercept_rises_violates`, `lma_rises_violates`, `hwma_rises_violates`, `t3_rises_violates`, `shmma_rises_violates`, `ehma_rises_violates`, `bf2_rises_violates`, `rema_rises_violates`, `ahma_rises_violates` — Raising an old price lowers later values: the weights of dema are not all positive (so for the next ones).
* `kama_rises_violates` — Raising the oldest price makes the move look less efficient, and kama follows it less.
* `edcf_rises_violates` — Raising one price changes the weights of the others.
* `max_addsUp_violates` — The highest price of a sum is not the sum of the highest prices.
* `roc_addsUp_violates` — Nor do rates of change.
* `kama_addsUp_violates` — Nor do adaptive averages.
* `hwma_violates` — For a period outside 7..13 the batch call indexes its table out of bounds before it refuses the period.
* `dwma_ref_violates` — A fractional period makes `ti_dwma_ref` write past the vector of its first average, whatever the prices.
* `dwma_ref_short_violates` — A series more than one bar short of the period makes `ti_dwma_ref` ask for a vector of negative size; the batch call writes nothing and succeeds.
* `kst_ref_short_violates` — A series shorter than the longest lag makes `ti_kst_ref` fail its own assertion.
* `copp_ref_ne_batch` — copp with a price of 0 in the short lag only: the batch call reports no change, the reference implementation half of the long one.
* `kst_ref_ne_batch` — kst with lags that differ only in their fractions: the batch call refuses them, the reference implementation computes.
* `rvi_overflow` — With a period from 1024 on, `period * (period + 1) * (2 * period + 1)` is not an `int`, whatever the input.
* `pbands_overflow` — pbands with a period from 1024 on: `period * (period + 1) * (2 * period + 1)` is not an `int`.
* `posc_overflow` — posc first looks at the length of the input.
* `rvi_ema_overflow` — The largest EMA period makes any input as long as the period overflow.
* `pbands_ref_violates` — The reference of pbands does not validate its period: with one below 1 it reads past its buffer.
* `posc_ref_violates` — The reference of posc does not validate its period: with one below 1 it reads past its buffer.
* `rvi_period_one` — With a period of one bar the line passes through it: rvi is 50 throughout.
* `posc_ema_overflow` — posc with the largest EMA period: `1 + ema_period` is not an `int`.
* `pbands_ref_fractional_violates` — With a fractional period the reference of pbands reads before the input.
* `posc_ref_fractional_violates` — With a fractional period the reference of posc reads before the input.
* `rvi_stream_ne_batch` — Fractional options: the streams keep the fraction, the batch calls drop it.
* `pbands_stream_ne_batch` — A fractional period: the stream of pbands keeps the fraction, the batch call drops it.
* `posc_stream_ne_batch` — A fractional EMA period: the stream of posc keeps the fraction, the batch call drops it.
* `macd_apo_violates` — For the periods 12 and 26 the macd line is not apo: macd uses 0.15 and 0.075 where apo has 2/13 and 2/27.
* `ahma_memory_violates`, `arsi_memory_violates`, `edcf_memory_violates`, `emsd_memory_violates`, `er_memory_violates`, `hf_memory_violates`, `idwma_memory_violates`, `mhlma_memory_violates`, `shmma_memory_violates` — When the memory of a buffer cannot be had, an exception leaves it and the stream is lost.
* `cmi_memory_violates` — it deletes the stream as an object of the base type, which has no virtual destructor: undefined for every stream.
* `dwma_memory_violates`, `evwma_memory_violates`, `pwma_memory_violates`, `rmi_memory_violates`, `swma_memory_violates` — When the memory of a buffer cannot be had, it answers `TI_OUT_OF_MEMORY` and keeps the stream it had allocated.
* `hfema_memory_violates`, `hfsma_memory_violates`, `ichi_memory_violates` — When the memory of a buffer cannot be had, it deletes the stream as an object of the base type, which has no virtual destructor: undefined, and the members are not destroyed.
* `ahma_reports_violates` — When the memory of a buffer cannot be had, an exception leaves `ti_ahma_stream_new`.
* `arsi_reports_violates` — When the memory of a buffer cannot be had, an exception leaves `ti_arsi_stream_new`.
* `ce_reports_violates` — When the stream itself cannot be allocated, an exception leaves `ti_ce_stream_new`.
* `cmi_reports_violates` — When the memory of a buffer cannot be had, an exception leaves `ti_cmi_stream_new`.
* `copp_reports_violates` — When the stream itself cannot be allocated, an exception leaves `ti_copp_stream_new`.
* `dwma_reports_violates` — When the memory of a buffer cannot be had, an exception leaves `ti_dwma_stream_new`.
* `edcf_reports_violates` — When the memory a standard container asks for cannot be had, an exception leaves `ti_edcf_stream_new`.
* `emsd_reports_violates` — When the memory of a buffer cannot be had, an exception leaves `ti_emsd_stream_new`.
* `er_reports_violates` — When the memory of a buffer cannot be had, an exception leaves `ti_er_stream_new`.
* `frama_reports_violates` — When the memory a standard container asks for cannot be had, an exception leaves `ti_frama_stream_new`.
* `hf_reports_violates` — When the memory of a buffer cannot be had, an exception leaves `ti_hf_stream_new`.
* `hfema_reports_violates` — When the memory of a buffer cannot be had, what `ti_hfema_stream_new` does is undefined.
* `hfsma_reports_violates` — When the memory of a buffer cannot be had, what `ti_hfsma_stream_new` does is undefined.
* `ichi_reports_violates` — When the memory of a buffer cannot be had, what `ti_ichi_stream_new` does is undefined.
* `idwma_reports_violates` — When the memory of a buffer cannot be had, an exception leaves `ti_idwma_stream_new`.
* `kc_reports_violates` — When the stream itself cannot be allocated, an exception leaves `ti_kc_stream_new`.
* `mhlma_reports_violates` — When the memory of a buffer cannot be had, an exception leaves `ti_mhlma_stream_new`.
* `pbands_reports_violates` — When the stream itself cannot be allocated, an exception leaves `ti_pbands_stream_new`.
* `posc_reports_violates` — When the stream itself cannot be allocated, an exception leaves `ti_posc_stream_new`.
* `rmf_reports_violates` — When the memory a standard container asks for cannot be had, an exception leaves `ti_rmf_stream_new`.
* `rvi_reports_violates` — When the stream itself cannot be allocated, an exception leaves `ti_rvi_stream_new`.
* `shmma_reports_violates` — When the memory of a buffer cannot be had, an exception leaves `ti_shmma_stream_new`.
* `smi_reports_violates` — When the stream itself cannot be allocated, an exception leaves `ti_smi_stream_new`.
* `vi_reports_violates` — When the memory a standard container asks for cannot be had, an exception leaves `ti_vi_stream_new`.
* `abands_scratch_violates`, `adxr_scratch_violates`, `cci_scratch_violates`, `cvi_scratch_violates`, `hma_scratch_violates`, `mass_scratch_violates`, `mfi_scratch_violates`, `stoch_scratch_violates`, `stochrsi_scratch_violates`, `ultosc_scratch_violates`, `ce_ref_scratch_violates`, `copp_ref_scratch_violates`, `kst_ref_scratch_violates`, `mama_ref_scratch_violates`, `pbands_ref_scratch_violates`, `posc_ref_scratch_violates`, `rmi_ref_scratch_violates`, `smi_ref_scratch_violates`, `tsi_ref_scratch_violates`, `vwap_ref_scratch_violates` — When its scratch memory cannot be had, it writes through a null pointer.
* `cmi_ref_scratch_violates`, `hfema_ref_scratch_violates`, `hfsma_ref_scratch_violates`, `ichi_ref_scratch_violates`, `mhlma_ref_scratch_violates` — When the last of its arrays cannot be had, an exception leaves it and the others are lost.
* `er_stream_overflow` — The largest period: `period + 1`, the size of the stream's ring, is not an `int`.
* `swma_overflow` — For the largest `int` the check itself overflows.
* `copp_stream_overflow` — The stream computes the weight total in `int`: it overflows where the batch call does not.
* `dwma_violates` — With period 5/2 the batch call writes one value more than `size - ti_dwma_start(options)`.
* `t3_ref_ne_batch` — For a fractional period t3 and its reference differ.
* `smoke_violates` — Whatever the reference and the streams wrote, the verdict is the same.
* `equal_reals_violates` — A value of the wrong sign passes.
* `pfe_stream_overflow` — The stream needs a ring of `period + 1` cells; where that conversion fails so does `stream_new`.
* `mhlma_overflow` — With the largest average period `ma_period + 1` is not an `int`: evaluated for the second value.
* `pfe_range_violates` — On a constant series the output is `-1000 / p`: below -100 for every period under 10.
* `pfe_ref_violates` — With a fractional period and more than `p` values the reference reads before the input array.
* `cmi_violates` — With period 1 one value fewer than announced is written.
* `cmi_stream_fractional` — With a fractional period the stream compares a whole index with a fractional one, so the extremes never leave its window: it uses the greatest and the least true range since the first bar, and the logarithm to the fractional base.
* `cmi_ref_violates` — With fewer than `p - 1` bars the reference asks for an array of negative length.
* `mhlma_violates` — With average period 1 one value fewer than announced is written, and the "mean" has the first value added to it.
* `mhlma_ref_ne_batch` — With average period 1 the reference writes a value for the first input and the batch call does not.
* `mhlma_ref_violates` — With a period from 2 on and any input, the reference forms a pointer before its input array.
* `cmi_stream_ne_batch` — With a fractional period the stream takes the logarithm to another base than the batch call: the first output already differs (unless the range share is 0 or 1).
* `pfe_stream_ne_batch` — With a fractional EMA period the stream and the batch call disagree.
* `pfe_ref_ne_batch` — The reference accepts an EMA period the batch call refuses.
* `linearRegression_overflow` — When `period * period` is not an `int`, the summation of squares overflows.
* `linreg_overflow` — linreg with a period whose square is not an `int`.
* `linregintercept_overflow` — linregintercept with a period whose square is not an `int`.
* `linregslope_overflow` — linregslope with a period whose square is not an `int`.
* `tsf_overflow` — tsf with a period whose square is not an `int`.
* `fosc_overflow` — fosc with a period whose square is not an `int`.
* `vwma_level_violates`, `vwap_level_violates` — Without volume it is 0, whatever the price.
* `evwma_level_violates` — A bar that leaves the window without volume sets it to 0, whatever the price.
* `mama_level_violates` — mama starts from 0, so it does not follow the level of the prices.
* `decay_units_violates` — decay falls by a fixed amount per bar, so it does not follow the unit of the prices.
* `pfe_units_violates` — pfe measures the price against time, so it depends on the unit of the prices.
* `msw_units_violates` — msw compares with the absolute threshold 0.001, so it depends on the unit of the prices.
* `adosc_overflow` — For the least `int` the start index overflows before the options are checked.
* `dpo_violates` — For periods 1 and 2 dpo reads the input before its first element as soon as there is enough input.
* `trima_overflow`, `hma_overflow` — For long periods the weight total overflows as soon as there is enough input.
* `hma_violates` — hma accepts period 1 and then reads one value past the end of any nonempty input.
* `kst_violates` — kst on an input no longer than its start index reads past the end, instead of returning no outputs.
* `wma_overflow` — For longer periods the weight total overflows as soon as there is enough input.
* `ce_writes_violates` — With period 1 the stream of ce has written one value fewer than its progress says.
* `mhlma_writes_violates` — With average period 1 the stream of mhlma has written one value fewer than its progress says.

Observed while reading, not stated as theorems: decay, edecay and mgdyn do not validate their option; `trend.h` divides by zero for
period 1; the streams of rvi, kc, copp, pbands, posc, smi and ce use throwing `new`, so lack of memory is an exception rather than a
return code; macd special-cases periods 12 and 26; `mesastoch.cc` types pi as 3.141459 in one place; variances of bbands,
volatility and emsd can come out slightly negative in floating point, making the square root NaN;
msw never uses the first input value.
