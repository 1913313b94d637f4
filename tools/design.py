"""Regenerates sections 4 and 5 of DESIGN.md from properties.jsonl, tools/claims.json and the comments of the theorems."""
s=open('/verif/DESIGN.md').read()
i=s.index('## 4. Per property'); head=s[:i]
P='''C01|`Model/Table`: `ti_find_indicator`'s bisection with `strcmp` over an arbitrary sorted table; invariant "the name, if present, lies in [imin, imax]"; sortedness of the shipped table by kernel evaluation.
C02|`Model/Table`: table, enum and the index stored in a stream; the enum constant of X is X's position; induction over the calls of a session.
C03|`Core/Stream`: generic theorem about lists of phases whose conditions only ever switch from true to false; instantiated for all 55 streams, any arithmetic.
C04|Same engine: progress after n bars, and the number of values written, for every accepted option vector; the streams that break it are witnesses.
C05|`Model/Ring`: cells + position; refinement to the list of assigned values by induction over assignments.
C06|`Model/Ring`: `std::max_element` over the (at most two) reversed ranges; maximality and age by induction over the scan.
C07|`Model/TiBuf`: cells as `Option`, running sum; invariant over pushes.
C08|`Model/LocalBuf`: the info array and the flat block; disjointness of ranges, refinement to one list of pushed values per buffer, every interleaving.
C09|`Model/Simple`: one loop; any arithmetic.
C10|`Model/Simple`: one loop; any arithmetic.
C11|`Model/Sum`: trajectory = sum of a window, by induction; stream by one-bar simulation.
C12|`Model/Ema`: recurrence, then bounds by induction in an ordered field.
C13|`Model/Ema`: loops refined to compositions of the ema recurrence of the specification.
C14|`Model/Window`, `Model/Ema`: running numerator = weighted window sum, by induction.
C15|`Model/Extremum`: invariant "the tracked index is the latest extremum of the window".
C16|`Model/Extremum`: from C15's tracker; ranges in an ordered field.
C17|`Model/Window`, `Model/Volume`, `Model/Flow`: smoothed gains and losses are non-negative; ranges follow.
C18|`Model/Range`: true range, Wilder's smoothing; stream in exact arithmetic.
C19|`Model/Direction`: recurrences and ranges.
C20|`Model/Volume`: running totals over a prefix, by induction.
C21|`Model/Stats`: running sums = window sums; variance as a sum of squares.
C22|`Model/Trend`: normal equations of the least-squares line.
C23|`Model/Ema`: differences of ema recurrences.
C24|`Model/Simple`: one loop with a lag.
C25|`Model/Simple`: one loop.
C26|`Model/Adaptive`: invariant over bars, any option values.
C27|`Model/Adaptive`, `Model/Cycle`, `Model/Fractal`: weights in [0,1] imply bounds; counterexample for vidya.
C28|`Model/Smooth`: triangle inequality over the window.
C29|`Model/Cycle`: clamps of the period give the range for arbitrary atan; scale invariance by simulation of two runs.
C30|`Model/Weighted`, `Model/Smooth`: running sums refined to the compositions.
C31|`Model/Chan`: trackers refined to window extremes; streams through ring search (C06).
C32|`Contract` (Spec): one law-free theorem per indicator, for every accepted option vector and every input; violations as theorems.
C33|`Refuses`, `NewRefuses` (Spec): per indicator; disagreements between batch and stream as theorems.
C34|Third component of `Contract`: output on a prefix is a prefix of the output.
C35|`StreamEqBatch` (Spec): simulation per bar, lifted to every chunking; any arithmetic where the operations agree, exact otherwise.
C36|The reference algorithm modelled on its own and compared with the batch model.
C37|Batch, start and stream depend on an option only through its truncation; witnesses where they do not.
C38|`Model/Alloc`: a command list per stream (allocate, guarded block, delete, …) run against an arbitrary allocator; ledger of live blocks.
C39|`Model/Filters`: recurrences; unit gain from the sums of coefficients.
C40|`Model/Python`: the call wrapper as a function on lists.
C41|`Model/Volume`: recurrences over the specification's ema.
C42|`Model/Volume`: window means.
C43|`Model/Osc`: buffers refined to windows (C07), then definitions.
C44|`Model/Filters`: induction over bars for a linear combination of two runs and for delayed input.
C45|`Model/Flow`: recurrences of doubly smoothed series; ranges.
C46|`Model/Flow`: running sums = window sums; convexity.
C47|`Model/Flow`: recurrences; vortex as ratios of window sums.
C48|`Model/Rank`: weights per row sum to one by kernel evaluation of the whole table; multiset = sorted window.
C49|`Model/Average`: closed forms of running sums, linear reproduction.
C50|`Model/Average`: window variance; distance weights.
C51|`Model/Regress`: regression slope of the window, extreme of projected highs and lows.
C52|`Model/Regress`: slope as in C51, recurrences of gains and losses.
C53|`Model/Trail`: running path length = window sum.
C54|`Model/Trail`: tracker over the ring of true ranges.
C55|`Model/Trail`: tracker over a growing, then sliding window.
C56|`Model/Fractal`: running sum and ring of returns refined to the window.
C57|`Model/Fractal`: two filters and a tracker over filtered prices.
C58|`Model/Fractal`: scan of halves, trackers over a deque.
C59|`Model/Hampel`: multiset = sorted window, deviations sorted.
C60|`Model/Hampel`: as C59 over the ema recurrence.
C61|`Model/Hampel`: as C59 over window means.
C62|`Model/Scratch`: a step list per batch function run against an arbitrary allocator.
C63|`Core/Binary64`: an executable model of IEEE doubles; gains, losses and ranges are kept non-negative by rounding, a rounded ratio of ordered numbers stays in [0,1]; violations by kernel evaluation of a run.
C64|`Core/Binary64`: one smoothing step stays between bounds because the bounds are doubles and rounding is monotone; violations by kernel evaluation of a run.
C65|`Core/Binary64`: "NaN, +inf or non-negative" is preserved by every operation of the loops; violations by kernel evaluation of a run.
C66|The law-free stream = batch theorems instantiated at doubles; violations by kernel evaluation of both runs.
C67|`Core/Binary64`: comparisons of doubles are exact; sums of whole numbers below 2^53 round to themselves, by induction over the sliding sum.
C68|`Model/CSharp`: the generated class as a state machine over a stream; induction over bars from the stream = batch theorems.
C69|`Model/CSharp`: the rolling window and the shared temporary of the generated class; lists.
C70|`Model/PyArgs`: the argument loop against Python's own binding rules (`Spec/PyArgs`); names by kernel evaluation over the table.
C71|`Model/Testing`: comparator and `run_one`'s count of failures; case analysis.
C72|`Model/InPlace`: arrays whose first cells were overwritten; what is not overwritten is still the input, so loops that read at or after the write position agree; counterexamples for the others.
C73|`Model/Counter`: sessions with a checked 32-bit counter; the counter moves by one per bar.
C74|Unrolling the recursion often enough turns it into a contraction (`Proof/Gain`, one kernel computation per table row); divergence by a quadratic form that grows along the recursion.
C75|The steady cycle solves the recursion and the rest dies out (`Proof/Decay`); its power is a quotient of two polynomials in `cos (2π/period)`, bounded on a rational interval that a sign test of Chebyshev values puts around the cosine (`Proof/Cutoff`).
C76|Limits in an Archimedean ordered field: contractions with a fading disturbance, second-order recursions by their poles, tables by the certificates of C75 (`Proof/Converge`).
C77|Each value theorem is applied to both inputs; the change of units is moved through sums, extrema, averages and recursions (`Proof/Units`, `Proof/UnitsBars`), and through best lines, medians and projections by their uniqueness.
C78|Windows: the value theorem is applied to the input and to its tail, and the indices are shifted (`Proof/Memory`). Fading: a calculus of series that come together geometrically (`Proof/Fading`: sums, windows, first-order recursions; `Proof/FadingFilters`: second order by a quadratic form, tables by their halving certificates). Violations: two one-bar histories whose outputs keep a fixed distance.
C79|The value theorem is applied to the input and to its mirror image; `Proof/Mirror` says what a reflection does to window means, extremes, gains and losses, ranges, directional moves and the trailing stop. Fits, medians and projections by uniqueness (`Props/MirrorFits`). Violations: an input that is its own mirror image but whose output is not.
C80|Spec/Accuracy measures the distance between a double and the exact rational value. One rounded operation is off by `2^-53` of its result (`Rounds.near`); a step of a recursive average shrinks the old error by `1 - k` and adds a few units, so a multiple of `1/k` units is an invariant (`blend_near`); running sums by induction on the bars (`slide_near`). Violations: runs in binary64, one of them by induction on the number of zeros.
C81|Spec/Raise orders rows price by price (`Below`) and says `Rises`. From the value theorems: every weight of the average is nonnegative, so each spec function is monotone (`winMean_le`, `ema_le`, `weighted_le`, …). Violations: two series that differ in one price, run in the kernel.
C82|`AddsUp` in Spec/Raise. From the value theorems: the spec functions are additive (`ema_add`, `weighted_add`, …); the regression lines because the line of best fit is unique and its normal equations are linear.
C83|Props/Related states equations between the output lists of calls (`Gives`), with no specification function in the statements. Proved from the value theorems of all functions involved; the regression lines by uniqueness of the best fit.
C84|Model/Codegen models the file-creating loop of codegen.py over a directory of texts, with Python's leaked variables and exceptions as outcomes. Kept text is a `Sublist`; completeness and idempotence by induction over the entries.
C85|Model/Fuzzer models `stress` as the list of calls it makes. Coverage is the base-4 representation of the counter; the clean run is an equivalence with the absence of undefined behaviour in those calls.
C86|Model/World adds a heap of stream objects and a list of calls to the dispatch of Model/Table. Induction over the history with the invariant that every object is the one its own calls lead to.
C87|Spec/Missing says `Poisons`, `Recovers` and `Hides` of a batch call on doubles. The closed forms of the running values (`_run` theorems, any arithmetic) are read with a value that absorbs every operation and compares with nothing (`HasNan`); induction over the bars. Hidden ones by runs in binary64.
C88|The allocation model of C38 (`Model/Alloc.lean`: which requests each stream_new makes, in which order, inside which handler). `Spec/Report.lean` says when an answer is right: TI_OUT_OF_MEMORY if and only if a request made during the call failed, and no exception. Proved for all environments by induction over the statements of the constructor; the violations are shown by a single failing request.
C89|`Spec/Lag.lean` says what it means to trail by `L` bars: exactly (`Lags`, once the window lies on the line) or in the limit (`LagsInTheEnd`). Proved from the value theorems: the weighted sums of a line in closed form by induction over the window; the recursive averages by the convergence lemma of C76 applied to the output minus the slope.
C90|`Spec/Repeat.lean`: bars that repeat (`Cycles`), outputs that repeat exactly, in the limit, or move by the same amount or factor per cycle. For windows it follows from the value theorem and the window theorem of C78 (leaving out old bars leaves out old outputs); for recursive functions the difference of two values one cycle apart obeys the recursion without input and dies out.
'''
import json
T={json.loads(l)['id']:json.loads(l)['title'] for l in open('/verif/properties.jsonl')}
C=json.load(open('/verif/tools/claims.json'))
sec='## 4. Per property\nHow each is modelled and proved; the theorem names and what is missing of a partial one are in MANIFEST.json.\n\n'
D=dict(l.split('|',1) for l in P.strip().split('\n'))
for k in sorted(T): sec+=f"* **{k} {T[k]}** ({C[k]['status']}) — {D[k]}\n"
import re,glob
sec5='''
## 5. Where code and property disagree
One line per theorem that proves a disagreement (section generated by `tools/design.py` from the comments of the theorems).

'''
seen=set(); groups={}
for f in sorted(glob.glob('/verif/lean/Verif/Props/*.lean')):
    t=open(f).read(); mod=f.split('/')[-1][:-5]
    prev=None
    for m in re.finditer(r'(?s)(?:/--((?:(?!-/).)*)-/\s*)?^theorem (\S+)',t,re.M):
        d=' '.join(m.group(1).split()) if m.group(1) else None
        if re.search(r'violates|overflow|ne_batch|out_of_range|period_one|ignores_|cmi_stream_fractional|python_short',m.group(2)):
            if mod in('Release','Scratch'):
                groups.setdefault((mod,re.sub(r'`ti_\w+?_stream_new`|`ti_\w+`','it',d or '')),[]).append(m.group(2)); continue
            groups.setdefault((mod,d or prev or ''),[]).append(m.group(2))
        if d: prev=d
for (mod,d),names in groups.items():
    if not d: d='(see the statement)'
    sec5+='* '+', '.join('`%s`'%n for n in names)+f' — {d}\n'
sec5+='''
Observed while reading, not stated as theorems: decay, edecay and mgdyn do not validate their option; `trend.h` divides by zero for
period 1; the streams of rvi, kc, copp, pbands, posc, smi and ce use throwing `new`, so lack of memory is an exception rather than a
return code; macd special-cases periods 12 and 26; `mesastoch.cc` types pi as 3.141459 in one place; variances of bbands,
volatility and emsd can come out slightly negative in floating point, making the square root NaN;
msw never uses the first input value.
'''
open('/verif/DESIGN.md','w').write(head+sec+sec5)
