{"id": "C01", "title": "Name lookup is exact", "statement": "ti_find_indicator(name) returns the table entry whose name is exactly `name` when the table has one, and a null pointer otherwise.", "quantifier": "every C string, and every table sorted the way the generator sorts it (of any length)", "why_tests_cant": "only names that exist are ever looked up by the tests; absence for every other string, and termination, cannot be sampled", "anchors": ["codegen.py: ti_find_indicator, index_entry, sorted(indicators.items())", "indicators.yaml"]}
{"id": "C02", "title": "A stream is served by the indicator that made it", "statement": "For a stream made by ti_X_stream_new, ti_stream_run, ti_stream_free and ti_stream_get_info act with the functions/entry of X, after any number of run calls.", "quantifier": "every indicator in the table that has a stream, every history of run calls on its stream", "why_tests_cant": "the dispatch goes through the integer stored in the stream and two independently sorted lists (enum and table); tests look at single runs", "anchors": ["codegen.py: enum TI_INDICATOR_*_INDEX, ti_stream_run, ti_stream_free, ti_stream_get_info", "indicators/*.cc: *_stream_new index assignment"]}
{"id": "C03", "title": "Splitting the input does not change the stream's output", "statement": "Feeding a series to a stream in any sequence of chunks (including empty ones) yields, concatenated, exactly the values (bit for bit, whatever the arithmetic) and the final progress that feeding it in one call yields; undefined behaviour, if any, is the same too.", "quantifier": "every series, every way to cut it into chunks, every accepted option vector", "why_tests_cant": "there are exponentially many ways to cut a series; the smoke test uses one bar at a time and one call (and compares the wrong buffers for the former)", "anchors": ["indicators/*.cc: ti_*_stream_run", "tests/smoke.c"]}
{"id": "C04", "title": "Progress accounting", "statement": "A fresh stream has progress -start; every bar fed adds one; after n bars exactly max(0, n - start) values have been written to every output.", "quantifier": "every series, chunking and accepted option vector of every modelled indicator with a stream", "why_tests_cant": "the tests compare a handful of fixed series (tests/*.txt) and one random series per option set at one chunking; the relation must hold at every prefix", "anchors": ["indicators/*.cc: ptr->progress", "codegen.py: ti_stream_get_progress"]}
{"id": "C05", "title": "The ring buffer remembers the last N values", "statement": "After any sequence of `buffer = v; step(buffer)` on a ringbuf of size N, buffer[k] is the value assigned k steps ago, for 0 <= k < N (0 if fewer steps were made).", "quantifier": "every size N >= 1 (fixed-size, heap, and the N = 2 specialisation), every history of assignments", "why_tests_cant": "wrap-around positions depend on the number of steps modulo N; tests only reach a few", "anchors": ["utils/ringbuf.hh: ringbuf<N>, ringbuf<2>, ringbuf<0>"]}
{"id": "C06", "title": "Ring buffer extremum search", "statement": "find_max(period)/find_min(period) return a cell holding the greatest/least of the last `period` assigned values and iterator_to_age returns how long ago that cell was assigned.", "quantifier": "every N, position, content over a total order, and 1 <= period <= N", "why_tests_cant": "the search is split at the wrap-around, so correctness depends on position, period and ties together", "anchors": ["utils/ringbuf.hh: find_max, find_min, iterator_to_age"]}
{"id": "C07", "title": "The summing buffer keeps the sum of the last `size` values", "statement": "After any pushes, ti_buffer's sum is the sum of the last min(pushes,size) values, and ti_buffer_get(b,-k) is the value pushed k pushes ago; no cell is read before it was written.", "quantifier": "every size >= 1 and every sequence of pushes", "why_tests_cant": "state depends on the whole push history", "anchors": ["utils/buffer.h: ti_buffer_push, ti_buffer_get, ti_buffer_qpush", "utils/buffer.c: ti_buffer_new"]}
{"id": "C08", "title": "Local buffers laid out in one block do not overlap", "statement": "Buffers declared with BUFFERS/BUFFER_INIT occupy disjoint consecutive ranges inside the allocated BUFFERS_SIZE cells; BUFFER_PUSH to one never changes another, and BUFFER_AT/BUFFER_AT1 with delta -k reads the value pushed k pushes ago.", "quantifier": "every number of buffers, all sizes, every interleaving of pushes", "why_tests_cant": "aliasing would only show for particular size combinations and interleavings", "anchors": ["utils/localbuffer.h"]}
{"id": "C09", "title": "Element-wise functions", "statement": "Each of the one- and two-input math functions writes exactly `size` values, the i-th being the function of the i-th inputs, and never fails.", "quantifier": "every size and every input", "why_tests_cant": "the tests compare a handful of fixed series (tests/*.txt) and one random series per option set at one chunking; and at one size", "anchors": ["indicators/simple1.h", "indicators/simple2.h", "indicators/{abs,acos,add,asin,atan,ceil,cos,cosh,div,exp,floor,ln,log10,mul,round,sin,sinh,sqrt,sub,tan,tanh,todeg,torad,trunc}.cc"]}
{"id": "C10", "title": "Bar transforms", "statement": "avgprice, medprice, typprice, wcprice, bop, marketfi and tr write one value per bar, the documented function of that bar (for tr: of that bar and the previous close).", "quantifier": "every size and every input", "why_tests_cant": "same", "anchors": ["indicators/avgprice.cc", "indicators/medprice.cc", "indicators/typprice.cc", "indicators/wcprice.cc", "indicators/bop.cc", "indicators/marketfi.cc", "indicators/tr.cc", "indicators/truerange.h"]}
{"id": "C11", "title": "sum/sma: moving sum and mean", "statement": "ti_sum and ti_sma write size-start values (start = period-1), the j-th being the sum resp. mean of inputs j..j+period-1; the sma stream yields the same for every chunking.", "quantifier": "every size, period >= 1 and input (exact arithmetic); counts and absence of out-of-bounds accesses for arbitrary arithmetic", "why_tests_cant": "the running sum is updated incrementally, so an error would accumulate with length", "anchors": ["indicators/sum.cc", "indicators/sma.cc"]}
{"id": "C12", "title": "ema: recurrence, bounds, constants", "statement": "ti_ema writes size values: the first input, then prev + (x - prev)*2/(period+1). Every output lies between the least and the greatest input so far; a constant series is reproduced.", "quantifier": "every size, period and input", "why_tests_cant": "bounds are about all prefixes of all inputs", "anchors": ["indicators/ema.cc"]}
{"id": "C13", "title": "dema/tema/trix are compositions of ema", "statement": "dema = 2 ema - ema(ema), tema = 3 ema - 3 ema(ema) + ema(ema(ema)), trix = percentage change of the triple ema, each from its start index on.", "quantifier": "every size, period and input", "why_tests_cant": "the code interleaves the recursions and starts them at different indices", "anchors": ["indicators/dema.cc", "indicators/tema.cc", "indicators/trix.cc"]}
{"id": "C14", "title": "wilders/wma/vwma: weighted averages", "statement": "wma is the linearly weighted mean of the window, vwma the volume weighted mean, wilders the mean of the first window followed by prev + (x - prev)/period; each lies between the extremes of what it averages (positive volumes).", "quantifier": "every size, period and input", "why_tests_cant": "incremental updates accumulate over the length", "anchors": ["indicators/wma.cc", "indicators/vwma.cc", "indicators/wilders.cc"]}
{"id": "C15", "title": "min/max: window extremum", "statement": "ti_min/ti_max write size-start values, the j-th being the least/greatest of inputs j..j+period-1.", "quantifier": "every size, period and input over a total order", "why_tests_cant": "the code tracks the index of the extremum and rescans when it leaves the window: correctness depends on tie and ordering patterns of any length", "anchors": ["indicators/min.cc", "indicators/max.cc"]}
{"id": "C16", "title": "stoch/willr/aroon/aroonosc: definition and range", "statement": "aroon up/down are 100*(period - bars since the extremum)/period, in [0,100]; aroonosc is their difference, in [-100,100]; willr is in [-100,0] and stoch in [0,100] when low <= close <= high; each equals its windowed definition.", "quantifier": "every size, options and input", "why_tests_cant": "range claims quantify over all inputs", "anchors": ["indicators/aroon.cc", "indicators/aroonosc.cc", "indicators/willr.cc", "indicators/stoch.cc"]}
{"id": "C17", "title": "rsi/cmo/mfi/rmi: range", "statement": "rsi lies in [0,100], cmo in [-100,100], whenever the denominator is non-zero, and equal their definitions.", "quantifier": "every size, period and input", "why_tests_cant": "range claims quantify over all inputs", "anchors": ["indicators/rsi.cc", "indicators/cmo.cc"]}
{"id": "C18", "title": "True range family", "statement": "tr is non-negative when low <= high; atr is Wilder's smoothing of tr and is non-negative; the atr stream equals the batch bit for bit for every chunking; natr = 100*atr/close.", "quantifier": "every size, period, input and chunking", "why_tests_cant": "same", "anchors": ["indicators/tr.cc", "indicators/atr.cc", "indicators/natr.cc", "indicators/truerange.h"]}
{"id": "C19", "title": "Directional movement family", "statement": "dm outputs are non-negative, plus and minus movements of one bar are never both positive, di/dx/adx equal their definitions, dx and adx lie in [0,100] where the denominator is non-zero.", "quantifier": "every size, period and input", "why_tests_cant": "range claims quantify over all inputs", "anchors": ["indicators/dm.cc", "indicators/di.cc", "indicators/dx.cc", "indicators/dx.h", "indicators/adx.cc", "indicators/adxr.cc"]}
{"id": "C20", "title": "Cumulative volume indicators", "statement": "obv, nvi, pvi, ad and wad equal the running totals their definitions prescribe, for every prefix.", "quantifier": "every size and input", "why_tests_cant": "prefix sums over unbounded histories", "anchors": ["indicators/obv.cc", "indicators/nvi.cc", "indicators/pvi.cc", "indicators/ad.cc", "indicators/wad.cc"]}
{"id": "C21", "title": "var/stddev/bbands", "statement": "var is the population variance of the window (hence >= 0), stddev its square root, bbands' middle band the mean and lower <= middle <= upper for non-negative width.", "quantifier": "every size, options and input", "why_tests_cant": "sums of squares are updated incrementally", "anchors": ["indicators/var.cc", "indicators/stddev.cc", "indicators/bbands.cc"]}
{"id": "C22", "title": "Linear regression family", "statement": "linreg, linregslope, linregintercept and tsf are the value at the end, slope, intercept and one-step forecast of the least-squares line through the window (period >= 2), and reproduce an exactly linear series.", "quantifier": "every size, period >= 2 and input", "why_tests_cant": "least squares optimality is a statement about all lines", "anchors": ["indicators/linreg.cc", "indicators/linregslope.cc", "indicators/linregintercept.cc", "indicators/tsf.cc", "indicators/trend.h", "indicators/fosc.cc"]}
{"id": "C23", "title": "macd/apo/ppo: differences of emas", "statement": "macd = ema(short) - ema(long), signal = ema of macd, histogram = macd - signal exactly; apo and ppo likewise.", "quantifier": "every size, options and input", "why_tests_cant": "same", "anchors": ["indicators/macd.cc", "indicators/apo.cc", "indicators/ppo.cc"]}
{"id": "C24", "title": "lag/mom/roc/rocr/decay family", "statement": "lag, mom, roc, rocr write size-period values comparing each bar with the one `period` bars before; volatility etc. follow.", "quantifier": "every size, period and input", "why_tests_cant": "same", "anchors": ["indicators/lag.cc", "indicators/mom.cc", "indicators/roc.cc", "indicators/rocr.cc", "indicators/decay.cc", "indicators/edecay.cc"]}
{"id": "C25", "title": "crossany/crossover", "statement": "crossover writes 1 exactly where the first series is above the second and was not above it at the previous bar; crossany 1 exactly where the order of the two changed.", "quantifier": "every size and input", "why_tests_cant": "equality/tie patterns", "anchors": ["indicators/crossany.cc", "indicators/crossover.cc"]}
{"id": "C26", "title": "psar stays on the right side", "statement": "The parabolic SAR's acceleration stays between step and max, a rising SAR never exceeds the last two lows, a falling one never undercuts the last two highs.", "quantifier": "every size, options and input with low <= high", "why_tests_cant": "invariant over unbounded histories", "anchors": ["indicators/psar.cc"]}
{"id": "C27", "title": "Adaptive averages are convex", "statement": "kama, vidya, mama/fama, frama move by a weight in [0,1]; so outputs stay between the extremes of the inputs seen (and 0, where the filter starts at 0).", "quantifier": "every size, options and input", "why_tests_cant": "invariant over unbounded histories", "anchors": ["indicators/kama.cc", "indicators/vidya.cc", "indicators/mama.cc", "indicators/frama.cc"]}
{"id": "C28", "title": "er is in [0,1]", "statement": "The efficiency ratio lies in [0,1] and is 1 on a strictly monotone window; stream and batch agree for every chunking.", "quantifier": "every size, period and input", "why_tests_cant": "range over all inputs", "anchors": ["indicators/er.cc"]}
{"id": "C29", "title": "hd and arsi: definition, range, scale", "statement": "hd is the smoothed period of Ehlers' homodyne discriminator; it lies in [0,50] and does not change when every price is multiplied by the same non-zero number. arsi is the relative strength over cycpart times that period and lies in [0,100] whenever the call succeeds.", "quantifier": "every size and input, whatever atan returns", "why_tests_cant": "the filters are recursive; the clamp must hold for every history", "anchors": ["indicators/hd.cc", "indicators/arsi.cc"]}
{"id": "C30", "title": "Composed averages", "statement": "trima, dwma, hma, t3, kst, copp are the documented compositions of sma/wma/ema/roc.", "quantifier": "every size, options and input", "why_tests_cant": "two incremental recursions are fused in one loop", "anchors": ["indicators/trima.cc", "indicators/dwma.cc", "indicators/hma.cc", "indicators/t3.cc", "indicators/copp.cc"]}
{"id": "C31", "title": "Channel indicators", "statement": "pc's bands are the window extremes of high and low, ce and ichi and smi are built from the window extremes; batch and stream agree for every chunking.", "quantifier": "every size, options, input and chunking", "why_tests_cant": "extremum tracking with rescans in batch, ring-buffer search in streams", "anchors": ["indicators/pc.cc", "indicators/ce.cc", "indicators/ichi.cc", "indicators/smi.cc"]}
{"id": "C32", "title": "No out-of-bounds access for accepted options", "statement": "For every option vector the batch function accepts (does not answer TI_INVALID_OPTION) and every size, it reads no input outside [0,size), reads no uninitialised value, and writes exactly max(0,size-start) values per output.", "quantifier": "every accepted option vector and every size, for each modelled indicator (one theorem each)", "why_tests_cant": "boundary sizes and options are exactly what a fixed test file does not contain; several indicators violate it", "anchors": ["indicators/*.cc"]}
{"id": "C33", "title": "Invalid options are refused without side effects", "statement": "An option vector that a function refuses makes batch and stream_new both return TI_INVALID_OPTION, writing nothing and making no stream; batch and stream_new accept the same option vectors.", "quantifier": "every option vector", "why_tests_cant": "the option space is unbounded", "anchors": ["indicators/*.cc"]}
{"id": "C34", "title": "Causality", "statement": "The value written for a bar depends only on bars up to it: running on a longer series that extends the shorter one reproduces the shorter one's output as a prefix.", "quantifier": "every series, every extension, every accepted option vector", "why_tests_cant": "a statement about pairs of inputs of all lengths", "anchors": ["indicators/*.cc"]}
{"id": "C35", "title": "stream equals batch", "statement": "For every accepted option vector and every chunking, a stream yields the values of the batch function.", "quantifier": "every series, chunking and accepted option vector, for each indicator with a stream", "why_tests_cant": "see C03", "anchors": ["indicators/*.cc"]}
{"id": "C36", "title": "ref equals batch", "statement": "The reference implementation ti_X_ref yields the values of ti_X.", "quantifier": "every series and accepted option vector", "why_tests_cant": "the smoke test compares the wrong buffers, so ref is effectively untested", "anchors": ["indicators/*.cc: ti_*_ref", "tests/smoke.c"]}
{"id": "C37", "title": "Fractional options behave like their integer part", "statement": "For an option the batch function truncates to an int, a fractional value gives the results (values and number of outputs) of its integer part, in batch, start and stream alike.", "quantifier": "every real option value", "why_tests_cant": "fractional periods never occur in the tests", "anchors": ["indicators/dwma.cc", "indicators/hurst.cc", "indicators/copp.cc", "indicators/lma.cc"]}
{"id": "C38", "title": "Allocation failure leaves nothing behind", "statement": "If stream_new returns TI_OUT_OF_MEMORY every block it allocated has been released, and stream_free releases every block stream_new allocated, exactly once.", "quantifier": "every pattern of allocation failures", "why_tests_cant": "allocation failure cannot be provoked by the tests", "anchors": ["indicators/*.cc: *_stream_new, *_stream_free"]}
{"id": "C39", "title": "Recursive low-pass filters", "statement": "ssmooth, gf1..gf4, bf2, bf3, lf, roof, rema: stream equals batch bit for bit for every chunking, and the filters with unit DC gain reproduce constants.", "quantifier": "every series, chunking and options", "why_tests_cant": "infinite impulse response", "anchors": ["indicators/gf1.cc", "indicators/gf2.cc", "indicators/gf3.cc", "indicators/gf4.cc", "indicators/bf2.cc", "indicators/bf3.cc", "indicators/lf.cc", "indicators/ssmooth.cc", "indicators/rema.cc"]}
{"id": "C40", "title": "Python binding pads to the input length", "statement": "The Python wrapper's padded result has the length of the input for every accepted call.", "quantifier": "every input length and start", "why_tests_cant": "boundary lengths", "anchors": ["bindings/python/tindicators"]}
{"id": "C41", "title": "Volume oscillators", "statement": "adosc is the difference of the short and long exponential averages of the accumulation/distribution line; kvo the difference of exponential averages of the volume force; vosc the percentage difference of the short and long mean volume; cmf the volume-weighted close location over the window, which lies in [-1,1] for bars with low<=close<=high and volume>=0.", "quantifier": "every size, accepted option pair and input", "why_tests_cant": "recurrences over unbounded histories and nested windows of any length", "anchors": ["indicators/adosc.cc", "indicators/kvo.cc", "indicators/vosc.cc", "indicators/cmf.cc"]}
{"id": "C42", "title": "ao, qstick, dpo", "statement": "ao is the 5-bar minus the 34-bar mean of the median price; qstick the mean of close-open over the period; dpo the price period/2+1 bars ago minus the mean over the period.", "quantifier": "every size, accepted period and input", "why_tests_cant": "sliding sums over windows of any length; dpo reads relative to the window", "anchors": ["indicators/ao.cc", "indicators/qstick.cc", "indicators/dpo.cc"]}
{"id": "C43", "title": "cci, cvi, mass, ultosc, abands, msw", "statement": "cci is the deviation of the typical price from its mean over the period in units of 0.015 mean absolute deviations; cvi the change in percent over `period` bars of the averaged range; mass the sum of the ratios of single to double averaged range; ultosc the 4:2:1 mean of buying pressure per true range over the three periods and lies in [0,100]; abands the means of the widened lows, the closes and the widened highs; msw lies in [-1,1].", "quantifier": "every size, accepted option vector and input", "why_tests_cant": "windows of any length and unbounded histories; index arithmetic modulo the buffer length", "anchors": ["indicators/cci.cc", "indicators/cvi.cc", "indicators/mass.cc", "indicators/ultosc.cc", "indicators/abands.cc", "indicators/msw.cc", "utils/buffer.h"]}
{"id": "C44", "title": "Recursive filters are linear and time invariant", "statement": "gf1, gf2, gf3, bf2, bf3, ssmooth, roof and lf answer s*x + t*y with s times the answer to x plus t times the answer to y, and answer a series delayed by d zero bars with the answer delayed by d bars.", "quantifier": "every accepted option vector, every two input series, every pair of factors and every delay", "why_tests_cant": "ranges over all pairs of series and all histories of the feedback state", "anchors": ["indicators/gf1.cc", "indicators/gf2.cc", "indicators/gf3.cc", "indicators/bf2.cc", "indicators/bf3.cc", "indicators/ssmooth.cc", "indicators/roof.cc", "indicators/lf.cc"]}
{"id": "C45", "title": "Momentum indicators tsi and rmi", "statement": "tsi is the doubly smoothed price change in percent of the doubly smoothed absolute change and lies in [-100,100]; rmi is the smoothed gain over the lookback in percent of smoothed gains plus losses and lies in [0,100]; streams and the reference function give the same values.", "quantifier": "every size, accepted option pair, input and chunking", "why_tests_cant": "range claims and recurrences quantify over unbounded histories", "anchors": ["indicators/tsi.cc", "indicators/rmi.cc"]}
{"id": "C46", "title": "Volume-weighted averages and flows: vwap, evwma, fi, pvt", "statement": "vwap is the volume-weighted mean of the typical price over the period and lies between the smallest and largest typical price of the window for nonnegative, not all zero volumes; evwma pulls its value to each close by the share of the bar's volume in gamma times the window's volume and stays within the closes seen; fi is the exponential average of volume times change of the close; pvt is the running sum of volume times relative change of the close; streams give the same values.", "quantifier": "every size, accepted options, input and chunking", "why_tests_cant": "sliding windows of any length and recurrences over unbounded histories", "anchors": ["indicators/vwap.cc", "indicators/evwma.cc", "indicators/fi.cc", "indicators/pvt.cc"]}
{"id": "C47", "title": "Keltner channel, vortex and McGinley dynamic", "statement": "kc's bands are the exponential average of the close plus and minus the multiplier times the exponential average of the true range, and do not cross when low <= high; vi's two lines are the windowed sums of vortex movement per true range and are nonnegative; mgdyn follows McGinley's recurrence and reproduces a constant series; streams give the same values.", "quantifier": "every size, accepted options, input and chunking", "why_tests_cant": "recurrences over unbounded histories, sliding windows of any length", "anchors": ["indicators/kc.cc", "indicators/vi.cc", "indicators/mgdyn.cc"]}
{"id": "C48", "title": "Henderson average and recursive median filter", "statement": "hwma with period 7 to 13 is the weighted average of the last period prices with Henderson's end-point weights and reproduces a constant series; rmf is the exponential smoothing, started at the first value, of the medians of an odd sliding window and, when its smoothing factor lies in [0,1], never leaves the range of the prices; streams give the same values; other options are refused.", "quantifier": "every size, options, input and chunking", "why_tests_cant": "medians of windows of any odd length with arbitrary ties, recurrences over unbounded histories", "anchors": ["indicators/hwma.cc", "indicators/rmf.cc"]}
{"id": "C49", "title": "Ahrens, exponential Hull, inverse-distance, Leo and sharp modified averages", "statement": "ahma is the unique sequence that starts with the signal and then steps 1/period of the way from the mean of the last average and the one period bars ago towards the signal, and reproduces a constant; ehma is the exponential average over sqrt(period) of twice the one over period/2 minus the one over period, and reproduces a constant; idwma is the mean in which the value k bars back weighs 1/(k+1)^exponent and stays within the window's bounds; lma is twice the weighted minus the simple moving average; shmma is the window's mean plus its slope correction, which is the least-squares line at the newest bar (so it equals linreg); streams give the same values.", "quantifier": "every size, accepted options, input and chunking", "why_tests_cant": "recurrences over unbounded histories, sliding sums over windows of any length, options for which an int product overflows", "anchors": ["indicators/ahma.cc", "indicators/ehma.cc", "indicators/idwma.cc", "indicators/lma.cc", "indicators/shmma.cc"]}
{"id": "C50", "title": "Moving standard deviation and Ehlers' distance coefficient filter", "statement": "emsd is the population standard deviation of the last period values, never takes the root of a negative number (in exact arithmetic) and does not depend on its averaging period; edcf is the mean of the last length values weighted with their squared distances to the length-1 values before them, stays within their bounds unless all weights vanish, and is then 0; streams give the same values.", "quantifier": "every size, accepted options (whole and fractional), input and chunking", "why_tests_cant": "sliding sums over windows of any length, fractional lengths of any size", "anchors": ["indicators/emsd.cc", "indicators/edcf.cc"]}
{"id": "C51", "title": "Projection bands and projection oscillator", "statement": "pbands writes, for each bar, the greatest of the window's highs and the least of its lows after each has been carried forward to the bar along the slope of the least-squares line of the window's closes; the bands always enclose the bar. posc is the exponential average of the position of the close between those bands in percent, and lies in [0,100] when every close lies between its low and high. Streams give bit for bit the same values.", "quantifier": "every period below 1024, every input and chunking", "why_tests_cant": "windows of any length and content, sliding regression sums over unbounded histories, an int overflow that only large periods reach", "anchors": ["indicators/pbands.cc", "indicators/posc.cc"]}
{"id": "C52", "title": "Regression-based relative volatility index", "statement": "rvi is 100 times the share of the average squared upward deviation in all average squared deviations, a deviation being the distance of the newest value from the least-squares line of its window and the averages being moved only by the bars of their own sign; it is 50 until an upward deviation occurs, always 50 for period 1, and always lies in [0,100]. The stream gives bit for bit the same values.", "quantifier": "every period below 1024 and EMA period below INT_MAX, every input and chunking", "why_tests_cant": "two interleaved recurrences over unbounded histories; an int overflow that only large periods reach", "anchors": ["indicators/rvi.cc"]}
{"id": "C53", "title": "pfe is the smoothed polarized efficiency", "statement": "For every period p >= 1 and EMA period e >= 1, ti_pfe writes size - p values, the j-th being the e-period exponential average of the polarized efficiencies of the windows of p steps up to that point: plus or minus 100 * sqrt(change^2 + 100) over the length of the price path through the window, plus exactly when the price rose. From period 10 on every output lies in [-100, 100].", "quantifier": "all accepted periods, all inputs of any length", "why_tests_cant": "The path length is kept as a running sum with values added and dropped for ever, and the range is an inequality about every possible price path.", "anchors": ["indicators/pfe.cc: ti_pfe, ti_pfe_ref, ti_pfe_stream_new, ti_pfe_stream_run"]}
{"id": "C54", "title": "cmi is the logarithmic share of the true range", "statement": "For every period p, ti_cmi writes size - p + 1 values, the j-th being 100 * log((largest - smallest true range) / sum of true ranges) / log(p) over the p bars starting at j. The quantity inside the logarithm is between 0 and 1 on bars with low <= high, so the output is never positive.", "quantifier": "all periods, all well-formed bar sequences of any length", "why_tests_cant": "The extremes are tracked incrementally by index and rescanned when they leave the window; any one wrong expiry shows only on particular orderings of the data.", "anchors": ["indicators/cmi.cc: ti_cmi, ti_cmi_ref, ti_cmi_stream_new, ti_cmi_stream_run"]}
{"id": "C55", "title": "mhlma averages the middle of the recent range", "statement": "For every period p and average period m, ti_mhlma writes size - m + 1 pairs: the mean over m values and the m-period exponential average of the midpoints between the greatest and least of the last p inputs (of all inputs while there are fewer than p). Every output lies between the least and greatest input.", "quantifier": "all periods, all inputs of any length", "why_tests_cant": "The loops interleave two windows of unrelated lengths, with extremes tracked by index, so the order in which the windows fill and the extremes expire matters for every combination of periods.", "anchors": ["indicators/mhlma.cc: ti_mhlma, ti_mhlma_ref, ti_mhlma_stream_new, ti_mhlma_stream_run"]}
{"id": "C56", "title": "hurst is the rescaled-range exponent of each window of returns", "statement": "For every whole period p >= 2, ti_hurst writes size - p pairs: for each window of p consecutive logarithmic returns, H = log(R/S) / log(p), where R is the range of the accumulated deviations from the mean and S the standard deviation (0 if R is 0), and 2 - H. H always lies in [0, 1] and the dimension in [1, 2]; multiplying all prices by one factor changes nothing. Streams give the same values.", "quantifier": "all whole periods, all price series of any length, every chunking", "why_tests_cant": "The range is an inequality between a maximum of partial sums and a standard deviation over windows of any length; the mean comes from a running sum over an unbounded history.", "anchors": ["indicators/hurst.cc: ti_hurst, ti_hurst_ref, ti_hurst_stream_new, ti_hurst_stream_run"]}
{"id": "C57", "title": "mesastoch smooths the stochastic of the filtered price", "statement": "For every period p >= 3 and cutoff m >= 1, ti_mesastoch writes size - p - 2 values: the prices go through a two-pole high-pass filter and a two-pole smoother, the position of the result between its extremes over the last p values (always in [0, 1]) goes through the same smoother. Streams give the same values.", "quantifier": "all periods, cutoffs and price series of any length, every chunking", "why_tests_cant": "Two recursive filters feed extremes that are tracked by index and rescanned on expiry; a wrong expiry shows only on particular orderings of filtered values.", "anchors": ["indicators/mesastoch.cc: ti_mesastoch, ti_mesastoch_ref, ti_mesastoch_stream_new, ti_mesastoch_stream_run"]}
{"id": "C58", "title": "frama adapts to the fractal dimension of the window", "statement": "For every even period 2h and average period a >= 2, ti_frama writes size values: the middle of the bar while the first window fills, then the average moved towards the middle of the bar by exp(log(2/(1+a)) * (D - 1)) clamped to [0.01, 1], D being the fractal dimension computed from the ranges of the window and its halves. D is never above 2, so the weight is never below 2/(1+a); every output lies within the bounds of the bars' middles so far. Streams, which track the four extremes incrementally, give the same values.", "quantifier": "all even whole periods, all bar series of any length, every chunking", "why_tests_cant": "The stream keeps four extremes with separate expiry in two adjacent windows; only particular orderings of highs and lows exercise each branch.", "anchors": ["indicators/frama.cc: ti_frama, ti_frama_stream_new, ti_frama_stream_run"]}
{"id": "C59", "title": "hf is the Hampel filter of the newest price", "statement": "For every k >= 1 and threshold t >= 0, ti_hf writes size - 2k values; each is the newest price of the window of 2k+1 if it is nearer to the window's median than t * 1.4826 median absolute deviations, the median otherwise. So every output is a price of the window within that distance of the median, and rescaling or shifting all prices rescales or shifts the outputs. Streams and the reference implementation give the same values.", "quantifier": "all k and thresholds, all price series of any length with any repetitions, every chunking", "why_tests_cant": "The sorted window is maintained by inserting and erasing equal keys; its invariant ranges over every history, including ties.", "anchors": ["indicators/hf.cc: ti_hf, ti_hf_ref, ti_hf_stream_new, ti_hf_stream_run"]}
{"id": "C60", "title": "hfema filters exponential averages", "statement": "For every period >= 1, k >= 1 and threshold t >= 0, ti_hfema writes size - 2k values; each is the Hampel filter (a value at exactly the limit is kept) of the middle one of 2k+1 consecutive exponential averages of the prices. Streams and the reference implementation give the same values.", "quantifier": "all periods, k and thresholds, all price series of any length, every chunking", "why_tests_cant": "The averages are recursive over the whole history and the erased key must be the very value inserted 2k bars earlier.", "anchors": ["indicators/hfema.cc: ti_hfema, ti_hfema_ref, ti_hfema_stream_new, ti_hfema_stream_run"]}
{"id": "C61", "title": "hfsma filters moving averages", "statement": "For every period p >= 1, k >= 1 and threshold t >= 0, ti_hfsma writes size - (p-1) - 2k values; each is the Hampel filter (a value at exactly the limit is kept) of the middle one of 2k+1 consecutive means of p prices. Streams and the reference implementation give the same values.", "quantifier": "all periods, k and thresholds, all price series of any length, every chunking", "why_tests_cant": "The relation between the period and the sizes of the buffers of the stream decides whether it works; tests use a few option pairs.", "anchors": ["indicators/hfsma.cc: ti_hfsma, ti_hfsma_ref, ti_hfsma_stream_new, ti_hfsma_stream_run"]}
{"id": "C62", "title": "Batch calls give back their scratch memory", "statement": "Whichever way a batch function returns - refused options, a short series, an error of a function it calls, memory it cannot have, or success - every block of scratch memory it allocated has been released exactly once.", "quantifier": "every pattern of allocation failures and every path through the function", "why_tests_cant": "allocation failure cannot be provoked by the tests, and leaks are not observed by them", "anchors": ["utils/buffer.c: ti_buffer_new, ti_buffer_free", "indicators/abands.cc, adxr.cc, cci.cc, cvi.cc, hma.cc, mass.cc, mfi.cc, stoch.cc, stochrsi.cc, ultosc.cc", "indicators/*.cc: *_ref with malloc, calloc or new[]"]}
{"id": "C63", "title": "Oscillator ranges survive rounding", "statement": "Computed in IEEE double precision (round to nearest, as the shipped code runs), willr stays in [-100, 0], bop in [-1, 1], and rsi and dx never leave [0, 100], for every series of finite bars; the same is expected of di, adx, aroon, aroonosc, cmo, er, vhf, mfi, cmf, stoch and ultosc.", "quantifier": "all periods, all series of finite doubles (for willr and bop: consistent bars, magnitudes up to 2^1022)", "why_tests_cant": "A range is lost through the accumulation of rounding errors on particular inputs; test data are a few series, compared with a tolerance.", "anchors": ["indicators/willr.cc, bop.cc, rsi.cc, dx.cc, di.cc, adx.cc, aroon.cc, aroonosc.cc, cmo.cc, er.cc, vhf.cc, mfi.cc, cmf.cc, stoch.cc, ultosc.cc"]}
{"id": "C64", "title": "Averages stay between the smallest and the largest input after rounding", "statement": "Computed in IEEE double precision, ema with a period of at least 2 stays between any bounds of the prices so far (a constant series is returned unchanged), and medprice lies between low and high; the same is expected of sma, wma, trima, wilders, vwma, ema(1) and typprice.", "quantifier": "all periods, all series of finite doubles of magnitude up to 2^1022", "why_tests_cant": "Whether a rounded average can overshoot depends on single bits of particular inputs.", "anchors": ["indicators/ema.cc, medprice.cc, sma.cc, wma.cc, trima.cc, wilders.cc, vwma.cc, typprice.cc"]}
{"id": "C65", "title": "Non-negative measures stay non-negative after rounding", "statement": "Computed in IEEE double precision, tr, atr, both outputs of dm, and natr (for positive closes) are never negative; the same is expected of var and stddev.", "quantifier": "all periods, all series of finite bars with low <= high", "why_tests_cant": "Cancellation makes a running variance negative on particular inputs only.", "anchors": ["indicators/tr.cc, atr.cc, natr.cc, dm.cc, var.cc, stddev.cc"]}
{"id": "C66", "title": "Streams reproduce the batch result bit for bit", "statement": "Computed in IEEE double precision, a stream writes exactly the doubles the batch function writes, for any split of the input.", "quantifier": "all options accepted by the indicator, all input series including NaN and infinities, every chunking", "why_tests_cant": "The tests compare with a tolerance; a difference in the order of operations shows only in the last bits of particular inputs.", "anchors": ["indicators/*.cc: ti_X, ti_X_stream_run"]}
{"id": "C67", "title": "Extremes and sums of whole numbers are exact in double arithmetic", "statement": "Computed in IEEE double precision, max and min of finite prices are the exact window extremes, and sum of whole numbers of magnitude at most B with (period+1)*B < 2^53 is the exact window sum, however long the series.", "quantifier": "all periods, all series of finite doubles (for sum: whole numbers within the bound) of any length", "why_tests_cant": "The sliding sum adds and subtracts once per bar, so errors could build up over series longer than any test.", "anchors": ["indicators/max.cc, min.cc, sum.cc"]}
{"id": "C68", "title": "A streaming C# class shows the batch value of the newest bar", "statement": "After each Update of a streaming C# indicator class, IsReady is false and the outputs are untouched while no more than start bars were seen; afterwards IsReady is true and each output is the value the batch function computes for the newest bar from all bars seen. Options the library refuses make the constructor throw.", "quantifier": "all indicators whose stream agrees with their batch function, all options, all non-empty series of bars", "why_tests_cant": "The classes are generated and untested; the claim ranges over every series and every indicator.", "anchors": ["bindings/lean/generate-bindings.py: streaming class template (Update, IsReady)"]}
{"id": "C69", "title": "A windowed C# class shows the value of the newest window", "statement": "A C# indicator class without streaming calls the library on the newest max(window size, start+1) bars and shows the last value of the result; for an indicator that looks back no further than its window this is the batch value of the whole series.", "quantifier": "all indicators, options, window sizes and series of bars", "why_tests_cant": "The classes are generated and untested; whether all inputs reach the library is a matter of the template, for every indicator.", "anchors": ["bindings/lean/generate-bindings.py: default class template (ComputeNextValue)"]}
{"id": "C70", "title": "Python arguments reach the parameter they are meant for", "statement": "A call of a Python indicator function binds arguments as a Python function with parameters (inputs then options) would: positionally first, then by keyword; a missing argument raises; superfluous ones raise. All parameter names are usable as keywords, and the name of the result type is an identifier.", "quantifier": "all indicators of the table, all mixtures of positional and keyword arguments, all option values", "why_tests_cant": "The number of mixtures of positional and keyword arguments and of option texts is unbounded.", "anchors": ["bindings/python/tindicators/impl.py: _Indicator.__call__, __parse", "indicators.yaml"]}
{"id": "C71", "title": "A passing smoke test vouches for all variants", "statement": "If the smoke test reports success for a test case then the outputs of the batch function, of the reference and of both streams equal the expected values up to a relative or absolute tolerance of 0.001.", "quantifier": "all expected values and all results of the four variants", "why_tests_cant": "It is a statement about the tests themselves: what they accept for every possible result.", "anchors": ["tests/smoke.c: run_one", "utils/testing.cc: equal_reals, equal_arrays, compare_answers"]}
{"id": "C72", "title": "Overwriting the input with the output", "statement": "A caller may pass an input array as the output array. For the element-wise functions, ema, dema, tema, trix, wilders, apo, ppo, macd, rmta, mom, roc, rocr, lag, max, min, decay, edecay, rsi, stochrsi, msw, avgprice, medprice, typprice, wcprice, bop, marketfi, emv, crossany, crossover, ad, adosc, obv, wad, willr, aroon, aroonosc, fisher, mfi, cci, ultosc and fosc, for dm, atr and natr with a period of at least 2, for tr over any input but the close, and for the streams other than atr, bf2, bf3, ce, frama, kc and tsi, the outputs are the same as with separate arrays, whichever input is overwritten and however the series is cut into chunks. The library relies on it: fi, smi and tsi smooth a buffer with ema in place. It is false for sma, sum, wma, trima, zlema, kama, vidya, var, stddev, md, cmo, vhf, dpo, vwma, qstick, vosc, linreg, linregintercept, linregslope and tsf, which read a bar that leaves the window after its place was overwritten, for nvi, pvi, tr over the close and dm, atr and natr with period 1, which read the previous bar after its place was overwritten, and for the seven streams named, which read a bar again.", "quantifier": "every option vector, every series, every chunking and every choice of the overwritten input", "why_tests_cant": "the smoke tests always pass separate arrays, and whether an overwritten cell is read again depends on the position in the chunk", "anchors": ["indicators/ema.cc", "indicators/simple1.h", "indicators/simple2.h", "indicators/mom.cc", "indicators/max.cc", "indicators/sma.cc", "indicators/bf2.cc", "indicators/bf3.cc", "indicators/tsi.cc", "indicators/atr.cc", "indicators/kc.cc", "indicators/ce.cc", "indicators/tr.cc", "indicators/natr.cc", "indicators/nvi.cc", "indicators/pvi.cc", "indicators/obv.cc", "indicators/crossany.cc", "indicators/willr.cc", "indicators/aroon.cc", "indicators/fisher.cc", "indicators/fosc.cc", "indicators/trend.h", "indicators/vwma.cc"]}
{"id": "C73", "title": "How many bars a stream can be fed", "statement": "A stream may be fed for ever. (False: progress is a 32-bit int. Up to INT_MAX + start bars in total every stream behaves as if the counter had no limit; with one more bar, in whatever chunks, the counter overflows, which is undefined behaviour.)", "quantifier": "every stream whose outputs equal the batch outputs, every option vector, every sequence of chunks of any total length", "why_tests_cant": "needs more than two thousand million bars", "anchors": ["codegen.py:ti_stream", "indicators/sma.cc:ti_sma_stream_run"]}
{"id": "C74", "title": "Bounded input, bounded output", "statement": "The recursive filters stay bounded: with every bar at most B in size, no output of gf1 or gf3 exceeds B, of gf2 1.01 B, of bf2 1.12 B (1.31 B with period 2), of bf3 1.31 B (2 B with period 2), of gf4 with periods up to 30 11 B, of lf with gamma up to 1 a fixed multiple of B, of rmta with beta between 0 and 1 3 B, however long the series is. (False for three accepted settings: gf4 with periods 32 to 40, lf with gamma above 1 and rmta with beta above 1 exceed every limit on prices between 1 and 3.)", "quantifier": "every series of every length, every accepted period, gamma and beta, every chunking of the streams", "why_tests_cant": "an unstable recursion looks fine on a short series: the growth needs more bars than a test vector has", "anchors": ["indicators/gf1.cc", "indicators/gf2.cc", "indicators/gf3.cc", "indicators/gf4.cc", "indicators/bf2.cc", "indicators/bf3.cc", "indicators/lf.cc", "indicators/rmta.cc"]}
{"id": "C75", "title": "The period of a smoothing filter is its cut-off", "statement": "Fed with a cycle of exactly `period` bars, whatever its phase, the outputs of a Gaussian or Butterworth filter approach a cycle of the same length with half the power. gf1 and gf2 do so within 0.01 % for every accepted period, and ssmooth, which takes no period, passes between 48 % and 49 % of the power of a ten-bar cycle and nothing of a two-bar cycle. Of a price that jumps up and down every bar bf3 leaves nothing and bf2 less than one part in two and a half million. (False for gf3, whose coefficients all come from one table and which stays below 45.2 % at every period, and for gf4 above period 6, whose last coefficient has the wrong sign: below 49.1 %, and below 50 % by ever more. bf2 and bf3 pass between 45 % and 50 % from periods 12 and 14 on, and less below.)", "quantifier": "every accepted period, every phase of the cycle, in the limit of long series", "why_tests_cant": "the power is a limit over infinitely many bars, for a continuum of phases", "anchors": ["indicators/gf1.cc", "indicators/gf2.cc", "indicators/gf3.cc", "indicators/gf4.cc", "indicators/bf2.cc", "indicators/bf3.cc", "indicators/ssmooth.cc"]}
{"id": "C76", "title": "What the outputs do when the price stops moving", "statement": "From the bar on at which the price stays at one value, whatever happened before, an average approaches that price and an oscillator approaches zero, as closely as one likes and for good. True of ema, wilders, dema, tema, zlema, t3, ehma, ahma, kama, rema, gf1, gf2, gf3, ssmooth and of frama (middle of the bar), mama and fama with a slow limit above 0, lf with a damping below 1, rmta with |beta| < 1 and gf4 up to period 30; of apo, macd with its signal and histogram, fi, roof and adosc; of ppo and trix if the price is not 0, and of cvi if the bar has a range. atr, natr and the bands of kc approach the values of the repeated bar. bf2 and bf3 approach the price times a factor within 1/18000 and 1/3000 of one. dm, kvo and, if the bar has a range, di fade to zero; mass approaches its period and smi the place of the close in the bar. evwma approaches the close if gamma times the period exceeds one half. rsi, rmi, dx and vidya do not return anywhere: they keep their last reading exactly; adx and adxr approach the reading at which dx froze, and stochrsi is zero from then on. (False for vidya: after a step from 0 to 1 with periods 2 and 2 it stays at alpha for ever; for pfe, which approaches -1000 divided by its period; for evwma with gamma times the period below one half, which leaves every bound. False for mgdyn: after a fall deep enough for its option, to a third with option 14, it leaves every bound although the price rests; false for lf with a damping of 1, which answers everything with zeros, and for ppo at price 0.)", "quantifier": "every accepted option, every history before the price rests and every resting price, in the limit of long series", "why_tests_cant": "the claim is about a limit over infinitely many bars, for arbitrary histories", "anchors": ["indicators/ema.cc", "indicators/wilders.cc", "indicators/ahma.cc", "indicators/kama.cc", "indicators/rema.cc", "indicators/frama.cc", "indicators/mama.cc", "indicators/mgdyn.cc", "indicators/macd.cc", "indicators/rsi.cc", "indicators/lf.cc", "indicators/rmta.cc", "indicators/gf1.cc", "indicators/gf4.cc", "indicators/bf2.cc", "indicators/roof.cc", "indicators/kc.cc"]}
{"id": "C77", "title": "Changing the unit or the level of prices and the unit of volumes", "statement": "Quoting the same market in another currency unit, from another level or with another lot size changes the outputs in the way their meaning says and in no other. Averages, bands, channels, trailing stops and forecasts follow the unit and the level of the prices; differences, ranges and deviations follow the unit only (variance its square); oscillators, directional indicators and correlations of bars with their range follow neither; percentage changes and volatilities do not depend on the unit; on-balance volume, accumulation and the Klinger oscillator follow the unit of the volume, money flow indices and volume-weighted prices do not depend on it; ease of movement and market facilitation follow both. (False for some: the phase of msw compares with a fixed 0.001 and pfe sets prices against bars, so both depend on the unit; decay falls by a fixed amount; mama starts from 0, and vwma, vwap and evwma are 0 where there is no volume, so they do not follow the level.)", "quantifier": "every option vector the theorem names, every input (with volume, with low <= high, or longer than the period where the theorem says so), every factor c > 0, level a and volume factor v > 0, in exact arithmetic", "why_tests_cant": "relates the outputs of two calls on all pairs of inputs that differ by a change of units; a test compares one series", "anchors": ["indicators/sma.cc:ti_sma", "indicators/rsi.cc:ti_rsi", "indicators/psar.cc:ti_psar", "indicators/obv.cc:ti_obv", "indicators/msw.cc:ti_msw", "indicators/vwma.cc:ti_vwma"]}
{"id": "C78", "title": "How long the outputs remember old bars", "statement": "Moving averages over a window, oscillators and bands built on windows and functions of one bar depend on the bars of their window only: leaving out the oldest k bars of the input leaves out the oldest k outputs and changes none of the others, so a chart may be computed from any sufficiently long tail of the data. Exponential and Wilder averages and the recursive filters remember every bar with geometrically falling weight: after any two histories the outputs come together at a fixed geometric rate once the bars are the same. Cumulative volume and price indicators never forget. (Neither do some that look like oscillators: after one rise or one fall and no move since, rsi, rmi and tsi stay at opposite ends of their range for ever, dx and vidya keep apart too, and decay keeps counting down from the old bar while the price falls.)", "quantifier": "every option vector the theorem names, every input, every number of bars left out, every pair of histories and every continuation (with low <= high where the theorem says so), in exact arithmetic", "why_tests_cant": "compares calls on all inputs with calls on all their tails, and all pairs of histories in the limit; a test compares finitely many series", "anchors": ["indicators/sma.cc:ti_sma", "indicators/aroon.cc:ti_aroon", "indicators/ema.cc:ti_ema", "indicators/atr.cc:ti_atr", "indicators/bf3.cc:ti_bf3", "indicators/rsi.cc:ti_rsi", "indicators/decay.cc:ti_decay", "indicators/obv.cc:ti_obv"]}
{"id": "C79", "title": "The market turned upside down", "statement": "If every price v of the input is replaced by a - v (so that the high and the low of a bar exchange places, and volumes stay), every rise becomes a fall of the same size. Averages, bands and trailing stops are turned upside down with the prices; max and min exchange their roles; momentum, flow and other signed oscillators change their sign; oscillators on a scale are turned around the middle of the scale (50, or -50 for Williams %R) as long as something moved; measures of dispersion, range and trend strength do not change, except that the plus and minus side are exchanged. So an indicator treats bulls and bears alike. Where it does not, this is stated: flat windows and ties count for one side (rsi, rmi, stoch, willr, fisher, psar, kvo, pfe, rvi), outputs relative to the price level (roc, natr, mfi, abands) and the one-sided decay and edecay.", "quantifier": "every option vector the theorem names, every input (with bars that have a range, or prices that move, where the theorem says so) and every a, in exact arithmetic", "why_tests_cant": "compares the call on every input with the call on every mirror image of it; a test compares finitely many pairs", "anchors": ["indicators/sma.cc:ti_sma", "indicators/bbands.cc:ti_bbands", "indicators/psar.cc:ti_psar", "indicators/max.cc:ti_max", "indicators/min.cc:ti_min", "indicators/mom.cc:ti_mom", "indicators/rsi.cc:ti_rsi", "indicators/willr.cc:ti_willr", "indicators/adx.cc:ti_adx", "indicators/kvo.cc:ti_kvo", "indicators/pbands.cc:ti_pbands"]}
{"id": "C80", "title": "Rounding errors stay small", "statement": "The outputs are computed with doubles, so they are rounded. From finite prices of magnitude at most m (m between 2^-900 and 2^900) the outputs are finite and close to the exact values: mom, tr, medprice, typprice, avgprice and wcprice are off by at most six rounding units (2^-53) of m; the recursive averages ema, wilders, atr, apo, macd, dema and tema (as long as their warm-up fits an int) by a number of units proportional to their periods, however many bars have been read, so they may run forever; the running sums of sum, sma and dpo (periods from 3) lose at most a fixed number of units with every bar, and var loses units of m squared. What a running sum has lost it never gets back: after one large price the mean of nothing but zeros stays -1/2 forever; and var writes 0 for two prices around 10^8 that differ by 1.", "quantifier": "every option vector the functions accept, every sequence of finite doubles of magnitude at most m and every number of bars (up to 2^43 to 2^50 divided by the period for the running sums)", "why_tests_cant": "a bound on the difference between the computed and the exact value for every price series of every length; tests compare a few short series with a tolerance", "anchors": ["indicators/ema.cc:ti_ema", "indicators/wilders.cc:ti_wilders", "indicators/atr.cc:ti_atr", "indicators/apo.cc:ti_apo", "indicators/macd.cc:ti_macd", "indicators/dema.cc:ti_dema", "indicators/tema.cc:ti_tema", "indicators/dpo.cc:ti_dpo", "indicators/sum.cc:ti_sum", "indicators/sma.cc:ti_sma", "indicators/var.cc:ti_var", "indicators/tr.cc:ti_tr", "indicators/medprice.cc:ti_medprice"]}
{"id": "C81", "title": "Higher prices, no lower average", "statement": "If no price of one series is above the price of the same bar in another, no output for the first is above the output for the second. This holds for sum, sma, ema, wilders, wma, trima, dwma, max, min, lag, decay, edecay, medprice, typprice, avgprice, wcprice, for the channels pc, ichi and mhlma, for gf1 and gf3, and, with the same volumes (not negative), for vwma, vwap and evwma. It fails for the averages that give old bars a negative weight (dema, tema, zlema, hma, lma, shmma, hwma, t3, ehma, ahma, rema, bf2, linreg, linregintercept, tsf) or choose their weights by the prices (kama, edcf): raising one price of a series can lower their output.", "quantifier": "every option vector the function accepts (short of the integer overflows already reported) and every pair of series of the same length, bar by bar one at or below the other", "why_tests_cant": "compares the outputs of two arbitrary series of arbitrary length; a test compares one output with a stored one", "anchors": ["indicators/sma.cc:ti_sma", "indicators/ema.cc:ti_ema", "indicators/wma.cc:ti_wma", "indicators/trima.cc:ti_trima", "indicators/vwma.cc:ti_vwma", "indicators/vwap.cc:ti_vwap", "indicators/evwma.cc:ti_evwma", "indicators/dema.cc:ti_dema", "indicators/zlema.cc:ti_zlema", "indicators/hma.cc:ti_hma", "indicators/kama.cc:ti_kama", "indicators/linreg.cc:ti_linreg"]}
{"id": "C82", "title": "Outputs of a sum of series", "statement": "Adding two series bar by bar, for instance the values of two positions of a portfolio, adds up the outputs: the output for the sum of two series is the sum of their outputs. This holds for sum, sma, ema, wilders, wma, trima, dwma, pwma, swma, lma, shmma, t3, ehma, hwma, hma, dema, tema, zlema, lag, mom, apo, macd (all three outputs), ao, qstick, dpo, linreg, linregintercept, linregslope, tsf, medprice, typprice, avgprice and wcprice. It does not hold for max, roc and kama.", "quantifier": "every option vector the function accepts (short of the integer overflows and out-of-bounds reads already reported) and every pair of series of the same length", "why_tests_cant": "relates the outputs of three runs on arbitrary series of arbitrary length", "anchors": ["indicators/sma.cc:ti_sma", "indicators/ema.cc:ti_ema", "indicators/macd.cc:ti_macd", "indicators/linreg.cc:ti_linreg", "indicators/hma.cc:ti_hma", "indicators/t3.cc:ti_t3", "indicators/dpo.cc:ti_dpo", "indicators/ao.cc:ti_ao"]}
{"id": "C83", "title": "Related functions agree", "statement": "Functions that are defined in terms of each other give matching outputs for the same series, bar by bar once the shorter warm-up is dropped: sum is period times sma; stddev is the square root of var and stderr that divided by the root of the period; bbands is sma plus and minus options[1] times stddev; mom is the price minus lag, roc is mom divided by lag, rocr is roc plus 1, and lags add up; apo is the difference of two emas and ppo is apo in percent of the long one; the macd line is apo and its signal the ema of that line, except that for the periods 12 and 26 macd uses coefficients of its own; dema, tema and trix are made of ema calls fed to each other, and t3 with factor 0 is three emas in a row; dwma is wma of wma, lma is 2 wma - sma, hma is wma of 2 wma - wma; vwma is a quotient of sums, vosc compares two smas, qstick and ao average with sma, dpo subtracts sma, pc is max of the highs and min of the lows; atr is wilders of tr and natr is atr in percent of the close; dx comes from dm, adx is wilders of dx and adxr the mean of two adx values; adosc is the difference of two emas of ad; linreg is linregintercept plus (period - 1) times linregslope, tsf is linreg plus linregslope and fosc the miss of the previous tsf; crossany is the sum of crossover for the pair and for the swapped pair; unslowed stoch is willr + 100 unless the window shows no movement, when both are 0. Further: trima is sma of sma with the two half periods, and smas commute; max of max and min of min are max and min over the joint window; ce is the pc band minus and plus a multiple of atr; kc is ema of typical price plus and minus a multiple of ema of tr; the ichimoku lines are midpoints of pc; abands averages with sma; rsi is a quotient of wilders averages and cmo of sums of the upward and downward moves; stochrsi is the place of rsi within its own max and min; er is mom over the sum of moves, vhf the max-min range over that sum; volatility is stddev of roc annualised; cci compares typprice with its sma and md; cvi is roc of ema, mass a sum of quotients of emas, copp wma of the sum of two rocs.", "quantifier": "every option vector the functions accept (short of the overflows and out-of-bounds periods already reported) and every input series of every length", "why_tests_cant": "an equation between the outputs of several calls on every series; tests check each function against its own stored values", "anchors": ["indicators/bbands.cc:ti_bbands", "indicators/macd.cc:ti_macd", "indicators/apo.cc:ti_apo", "indicators/ppo.cc:ti_ppo", "indicators/dema.cc:ti_dema", "indicators/trix.cc:ti_trix", "indicators/atr.cc:ti_atr", "indicators/adx.cc:ti_adx", "indicators/adosc.cc:ti_adosc", "indicators/fosc.cc:ti_fosc", "indicators/stoch.cc:ti_stoch", "indicators/willr.cc:ti_willr", "indicators/hma.cc:ti_hma"]}
{"id": "C84", "title": "Regenerating the sources loses nothing", "statement": "Running codegen.py on the indicators directory never loses code: whatever text a source file has before the run is still in a source file of the same indicator afterwards, possibly with lines added in between and at the end, even if the script dies half-way; files of indicators that are not in indicators.yaml are left alone. If the run finishes, every listed indicator has a source file with all the functions its entry asks for, and a second run changes nothing. A renamed source gets the missing includes right after its first block of includes, or at the top. A run that starts from complete sources finishes; a new indicator gets a file with its functions only. (It dies with a NameError if the first listed indicator is new, gives a new indicator the stream of the one before it, fails with --old on a .cc source, and writes reference functions with the return type glued to the macro.)", "quantifier": "every indicators.yaml, every prior content of the source directory, with and without --old", "why_tests_cant": "concerns every list of indicators and every content of the directory the script may meet, and every point at which it may die", "anchors": ["codegen.py"]}
{"id": "C85", "title": "What a clean run of the fuzzer means", "statement": "The fuzzer tries every vector made of its four option values (-20, 0, 0.7, 5) for an indicator with any number of options, on each of its seven series, in batch and, if there is a stream, fed at once. A run without undefined behaviour means exactly that these calls have none. It says nothing about other options: it passes dpo, which reads out of bounds for the periods 1 and 2 on every series that is long enough.", "quantifier": "every indicator, every number of options, every vector of the option values", "why_tests_cant": "the fuzzer is the test; what it covers for every number of options cannot be seen from a run", "anchors": ["tests/fuzzer.cc:stress", "tests/fuzzer.cc:g_options", "indicators/dpo.cc:ti_dpo"]}
{"id": "C86", "title": "Streams alive at the same time do not disturb one another", "statement": "A program may keep any number of streams of any indicators alive and interleave their calls with each other and with batch calls in any order. Every answer (outputs, progress, info, return code) is the one the stream would give were it alone, also if its address belonged to another stream before. The program has undefined behaviour only if it uses a stream outside its life, feeds it something that would be unsafe for it alone, or the allocator hands out a block in use; and after the program exactly the streams not freed are left.", "quantifier": "every history of calls of the public interface, on any number of streams of any indicators, with any reuse of addresses", "why_tests_cant": "ranges over every interleaving of calls on every number of streams; the tests run one stream at a time", "anchors": ["codegen.py:ti_stream_run", "codegen.py:ti_stream_get_info", "codegen.py:ti_stream_get_progress", "codegen.py:ti_stream_free", "indicators"]}
{"id": "C87", "title": "A missing price is neither hidden nor passed on for ever", "statement": "Data feeds write a NaN where a price is missing. The output of the bar and of the bars whose window contains it should show it (be NaN), and the outputs of later windows should not depend on it. In double arithmetic this holds for the element-wise functions, the price transforms, bop, marketfi, emv, crossany, crossover, lag, mom, roc, rocr, tr, hwma, swma and msw: a bar, whatever double it holds, has no influence after its window. It fails for every function that carries a sum or an average along, also those with a finite window (sum, sma, wma, var, stddev, bbands, md, the linear regressions, dpo, hma, lma, dwma, the exponential averages and what is built on them, the recursive filters, atr, natr, dm, ad, adosc, vwma, fi, qstick, kc): one missing price and every later output is NaN, however many good bars follow. And rsi, cmo, max, min, decay, edecay, obv, tr and atr (missing close) hide it: they write an ordinary number; max and min are right again once it has left the window.", "quantifier": "every series of doubles (NaN and infinities included), every position of the missing price, every number of later bars, every accepted option", "why_tests_cant": "ranges over all positions and all continuations of any length; the test data have no missing prices", "anchors": ["indicators/sum.cc:ti_sum", "indicators/sma.cc:ti_sma", "indicators/ema.cc:ti_ema", "indicators/rsi.cc:ti_rsi", "indicators/max.cc:ti_max", "indicators/mom.cc:ti_mom", "indicators/tr.cc:ti_tr"]}
{"id": "C88", "title": "Running out of memory is answered with a code, not an exception", "statement": "ti_X_stream_new answers TI_OUT_OF_MEMORY exactly when some memory it asked for could not be had, and no exception leaves it. This holds in full for atr, bf2, bf3, ehma, evwma, fi, gf1..gf4, hd, hurst, hwma, lf, lma, mama, mesastoch, mgdyn, pc, pfe, pvt, pwma, rema, rmi, roof, sma, ssmooth, swma, t3, tsi and vwap. For ce, copp, kc, pbands, posc, rvi and smi it holds once the stream itself is allocated; if that fails std::bad_alloc escapes. For ahma, arsi, cmi, dwma, edcf, emsd, er, frama, hf, idwma, mhlma, rmf, shmma and vi a failure of the stream itself is answered, a failure of one of its buffers escapes as an exception. For hfema, hfsma and ichi a failure of the stream itself is answered, a failure of a buffer is undefined behaviour.", "quantifier": "every pattern of failing and succeeding allocations, every starting heap, accepted and refused options", "why_tests_cant": "the tests never make an allocation fail; ranges over every set of failing requests", "anchors": ["indicators/sma.cc:ti_sma_stream_new", "indicators/ce.cc:ti_ce_stream_new", "indicators/kc.cc:ti_kc_stream_new", "indicators/ichi.cc:ti_ichi_stream_new", "indicators/ahma.cc:ti_ahma_stream_new"]}
{"id": "C89", "title": "How far an average trails behind a steady trend", "statement": "When the price moves along a straight line, the output of an average is the height of that line a fixed number of bars ago, and that number depends on the options alone: half of p - 1 for sma and trima, a third of p - 1 for wma, two thirds for dwma, a sixth for lma, p for lag, none for linreg and shmma, p - 1 for linregintercept, one bar ahead for tsf, (s - 2 - p mod 2) / 3 for hma with s the root of p rounded down; these hold exactly as soon as the window lies on the line. The recursive averages approach such a lag: (p - 1) / 2 for ema, ahma and rema, p - 1 for wilders, none for dema and tema, half a bar for zlema with an even period and none with an odd one, 3 (1 - v) (p - 1) / 2 for t3, 5/4 for kama, half the root of p less one bar for ehma, (3 + 5 g) / (2 - 2 g) for lf, a number given by the coefficient tables for gf1 and gf2, six bars for gf3 whatever its period, a constant for ssmooth; rmta runs one bar ahead. apo approaches the slope times half the difference of its periods, mom is the slope times its period, dpo the slope times a number of bars, the line and signal of macd approach the slope times the difference of the two lags and the histogram 0, roof approaches 0, and vwma with a constant volume trails like sma.", "quantifier": "all options the function accepts (with the int ranges the value theorems need), all straight lines, all prices before the line starts, all lengths, exact arithmetic", "why_tests_cant": "the limit of the recursive averages is never reached on a finite input, and the lag is a statement about every slope, height, period and history before the trend", "anchors": ["indicators/sma.cc", "indicators/wma.cc", "indicators/trima.cc", "indicators/dwma.cc", "indicators/lma.cc", "indicators/hma.cc", "indicators/ema.cc", "indicators/wilders.cc", "indicators/dema.cc", "indicators/tema.cc", "indicators/zlema.cc", "indicators/t3.cc", "indicators/kama.cc", "indicators/ehma.cc", "indicators/trend.h", "indicators/shmma.cc", "indicators/ahma.cc", "indicators/rema.cc", "indicators/lf.cc", "indicators/gf1.cc", "indicators/gf2.cc", "indicators/gf3.cc", "indicators/ssmooth.cc", "indicators/roof.cc", "indicators/macd.cc", "indicators/dpo.cc", "indicators/vwma.cc", "indicators/rmta.cc"]}
{"id": "C90", "title": "What a price that repeats itself does to the outputs", "statement": "When from some bar on the bars repeat every q bars, the outputs of every function that looks at a window repeat every q bars from the first window on that lies in the repeating part; the moving sum and mean over a whole number of cycles are flat and the momentum over a whole number of cycles is 0. The outputs of the recursive averages, of kama and of apo, macd and adosc of two bars q apart come as close as one likes. The running totals obv, wad and ad do not repeat: they move by the same amount in every cycle, and nvi and pvi are multiplied by the same factor in every cycle.", "quantifier": "all options the function accepts (with the int ranges the value theorems need), all cycle lengths, all bars before and in the cycle, all lengths, exact arithmetic", "why_tests_cant": "it ranges over every cycle length and content, and for the recursive functions it is a statement about the limit", "anchors": ["indicators/sma.cc", "indicators/sum.cc", "indicators/mom.cc", "indicators/wma.cc", "indicators/trima.cc", "indicators/stoch.cc", "indicators/cci.cc", "indicators/bbands.cc", "indicators/linreg.cc", "indicators/ema.cc", "indicators/wilders.cc", "indicators/dema.cc", "indicators/tema.cc", "indicators/zlema.cc", "indicators/t3.cc", "indicators/ehma.cc", "indicators/kama.cc", "indicators/ahma.cc", "indicators/lf.cc", "indicators/gf3.cc", "indicators/apo.cc", "indicators/macd.cc", "indicators/adosc.cc", "indicators/obv.cc", "indicators/wad.cc", "indicators/ad.cc", "indicators/aroon.cc", "indicators/aroonosc.cc", "indicators/hf.cc", "indicators/hfsma.cc", "indicators/rmta.cc", "indicators/rema.cc", "indicators/ssmooth.cc", "indicators/roof.cc", "indicators/gf1.cc", "indicators/gf2.cc", "indicators/nvi.cc", "indicators/pvi.cc"]}
