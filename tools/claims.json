{
 "C09": {
  "status": "partial",
  "theorems": [
   "(abs|acos|asin|atan|ceil|cos|cosh|exp|floor|ln|log10|round|sin|sinh|sqrt|tan|tanh|todeg|torad|add|sub|mul|div)_value",
   "trunc_value_partial",
   "trunc_out_of_range",
   "trunc_violates"
  ],
  "note": "proved for all but ti_trunc, which converts through int: outside the range of int it is undefined (trunc_out_of_range, witness trunc_violates)"
 },
 "C10": {
  "status": "proved",
  "theorems": [
   "(avgprice|medprice|typprice|wcprice|bop|marketfi|emv|tr)_value",
   "bop_range",
   "tr_nonneg"
  ],
  "note": ""
 },
 "C11": {
  "status": "proved",
  "theorems": [
   "sum_.*",
   "sma_.*"
  ],
  "note": ""
 },
 "C24": {
  "status": "proved",
  "theorems": [
   "(lag|mom|roc|rocr|decay|edecay)_value",
   "e?decayVal_spec"
  ],
  "note": ""
 },
 "C25": {
  "status": "proved",
  "theorems": [
   "cross.*_value",
   "crossany_symm"
  ],
  "note": ""
 },
 "C32": {
  "status": "partial",
  "theorems": [
   ".*_contract(_partial)?",
   ".*_violates",
   ".*_overflow"
  ],
  "note": "All 161 indicators are modelled; _violates and _overflow are the accepted options for which the code breaks the claim, _contract_partial theorems state the options for which it holds."
 },
 "C33": {
  "status": "partial",
  "theorems": [
   ".*_refuses(_partial)?"
  ],
  "note": "All indicators with options are covered; where batch and stream validate differently the theorems are named _stream_violates/_stream_ne_batch."
 },
 "C34": {
  "status": "partial",
  "theorems": [
   ".*_contract(_partial)?"
  ],
  "note": "Causality is the third part of Contract; partial where the contract is."
 },
 "C35": {
  "status": "partial",
  "theorems": [
   ".*_stream_eq_batch(_partial)?"
  ],
  "note": "All 55 streams; _partial theorems exclude the options for which stream and batch differ, witnessed by the _stream_ne_batch and _stream_violates theorems listed with the single indicators."
 },
 "C03": {
  "status": "proved",
  "theorems": [
   ".*_chunks"
  ],
  "note": "All 55 streams, every option vector, every arithmetic (dwma: under the hypothesis that truncation commutes with doubling as it does for doubles and in every ordered field)."
 },
 "C12": {
  "status": "proved",
  "theorems": [
   "ema_value",
   "ema_bounds",
   "ema_const"
  ],
  "note": ""
 },
 "C13": {
  "status": "partial",
  "theorems": [
   "(dema|tema)_value_partial",
   "(dema|tema)_overflow",
   "trix_value_partial",
   "trix_period_one",
   "zlema_value_partial"
  ],
  "note": "dema/tema: all periods whose start index fits an int (beyond it dema_overflow/tema_overflow: signed overflow); trix: periods >= 2, since period 1 violates the definition (trix_period_one)"
 },
 "C14": {
  "status": "partial",
  "theorems": [
   "wilders_value",
   "wilders_bounds",
   "wma_value_partial",
   "wma_bounds",
   "wma_overflow",
   "vwma_value",
   "vwma_bounds"
  ],
  "note": "complete except wma with period*(period+1) > INT_MAX, where the code overflows (wma_overflow)"
 },
 "C23": {
  "status": "proved",
  "theorems": [
   "apo_value",
   "ppo_value",
   "ppo_apo",
   "macd_value"
  ],
  "note": "macd: options 12/26 use the coefficients 0.15/0.075 hard-coded in the source"
 },
 "C05": {
  "status": "proved",
  "theorems": [
   "ring_remembers",
   "ring_get_bounds",
   "ring2_remembers"
  ],
  "note": "any arithmetic, any size and history"
 },
 "C06": {
  "status": "proved",
  "theorems": [
   "ring_find_max",
   "ring_find_min",
   "ring2_find_max"
  ],
  "note": "ring2_find_max: the two-cell specialisation ignores the period"
 },
 "C07": {
  "status": "proved",
  "theorems": [
   "tibuf_.*"
  ],
  "note": ""
 },
 "C17": {
  "status": "partial",
  "theorems": [
   "(rsi|cmo|mfi)_(value|range)",
   "rmi_(value|range)_partial"
  ],
  "note": "rmi for integer lookback periods"
 },
 "C18": {
  "status": "partial",
  "theorems": [
   "tr_value",
   "tr_nonneg",
   "atr_(value|nonneg|chunks|ref_eq_batch|stream_value|stream_eq_batch)",
   "natr_value"
  ],
  "note": "the stream multiplies the first sum by 1/period where the batch divides by period, so stream = batch is proved in exact arithmetic, not bit for bit"
 },
 "C36": {
  "status": "partial",
  "theorems": [
   ".*_ref_eq_batch(_partial)?",
   ".*_ref(_short)?_violates",
   ".*_ref_ne_batch"
  ],
  "note": "All reference implementations; those that are a textual copy of the batch function (arsi, gf1-gf4, mgdyn, pwma, hd) are covered by the batch model itself."
 },
 "C15": {
  "status": "proved",
  "theorems": [
   "(max|min)_(value|contract|refuses|ref_eq_batch)"
  ],
  "note": ""
 },
 "C16": {
  "status": "partial",
  "theorems": [
   "(willr|stoch|stochrsi|aroon|aroonosc|vhf|fisher)_(value|range)(_partial)?",
   "fisher_log_arg",
   "(stoch|stochrsi)_overflow"
  ],
  "note": "complete except stoch/stochrsi periods whose start index does not fit an int, where the code overflows (stoch_overflow, stochrsi_overflow)"
 },
 "C19": {
  "status": "partial",
  "theorems": [
   "(dm|di|dx|adx|adxr)_value(_partial)?",
   "dm_nonneg",
   "dm_exclusive_partial",
   "dm_exclusive_violates",
   "di_range",
   "dx_range",
   "adx_adxr_range",
   "adxr?_overflow"
  ],
  "note": "complete except: plus and minus are both positive when the two moves are equal (dm_exclusive_violates); adx/adxr periods whose start index overflows int"
 },
 "C20": {
  "status": "proved",
  "theorems": [
   "(obv|nvi|pvi|ad|wad)_value",
   "nvi_follows",
   "nvi_pvi_pos"
  ],
  "note": ""
 },
 "C41": {
  "status": "proved",
  "theorems": [
   "(adosc|kvo|cmf|vosc)_value",
   "cmf_range"
  ],
  "note": ""
 },
 "C42": {
  "status": "partial",
  "theorems": [
   "(ao|qstick)_value",
   "dpo_value_partial",
   "dpo_violates"
  ],
  "note": "complete except dpo with period 1 or 2, where the code reads past the input (dpo_violates)"
 },
 "C21": {
  "status": "proved",
  "theorems": [
   "(var|stddev|stderr|bbands|volatility|md)_value",
   "var_zero_iff",
   "stddev_sq_var",
   "bbands_order",
   "md_nonneg"
  ],
  "note": "sqrt enters through LawfulSqrt, which real square root satisfies"
 },
 "C43": {
  "status": "partial",
  "theorems": [
   "(cci|cvi|mass|ultosc|abands|msw)_(value|range|order)(_partial)?",
   "(cci|cvi|mass)_overflow",
   "(cvi|ultosc)_violates"
  ],
  "note": "complete except: cvi with period 1 reads an uninitialised cell (cvi_violates); ultosc with medium = long reads out of bounds (ultosc_violates); periods whose start index overflows int"
 },
 "C22": {
  "status": "partial",
  "theorems": [
   "(linreg|linregintercept|tsf|linregslope|fosc)_(value|contract)_partial",
   "(linreg|linregintercept|tsf|linregslope|fosc)_overflow",
   "(linreg|fosc)_linear_partial",
   "best_line_exists_unique"
  ],
  "note": "every period from 2 up to 46340; beyond that the code squares the period in int and overflows (the *_overflow theorems), which is the only part of the claim that fails"
 },
 "C26": {
  "status": "proved",
  "theorems": [
   "psar_value",
   "psar_side",
   "sarAt_af"
  ],
  "note": ""
 },
 "C27": {
  "status": "partial",
  "theorems": [
   "(kama|vidya)_(value|bounds)(_partial)?",
   "vidya_(bounds_)?violates",
   "mama_(contract|value|within|stream_eq_batch|ref_eq_batch_partial)",
   "frama_(value|bounds)_partial",
   "fractalWeight_bounds"
  ],
  "note": "kama is proved in full; vidya's weight is not in [0,1] in general (vidya_bounds_violates), the bound is proved where it is; mama and fama in full; frama for whole periods"
 },
 "C30": {
  "status": "partial",
  "theorems": [
   "(trima|hma|kst)_(value|bounds|runs)_partial",
   "(trima|hma)_overflow",
   "(hma|kst)_violates",
   "t3_(value|stream_value)",
   "(dwma|copp)_(value|bounds|stream_value)_partial",
   "dwma_violates",
   "copp_stream_overflow",
   "pwma_(value|bounds|stream_value_partial)",
   "swma_(value|denominator_pos|constant_partial)"
  ],
  "note": "trima for every period whose weight total fits int; hma for periods 2..46340 (period 1 reads out of bounds: hma_violates); kst for inputs longer than its start index (shorter ones read out of bounds: kst_violates); dwma and copp for integer-valued periods (dwma_violates: a fractional period writes out of bounds); t3 in full"
 },
 "C28": {
  "status": "partial",
  "theorems": [
   "er_contract",
   "er_value",
   "er_range",
   "er_stream_value_partial",
   "er_stream_eq_batch_partial",
   "er_stream_overflow",
   "er_refuses"
  ],
  "note": "batch for every accepted period; stream for integer-valued periods below INT_MAX (er_stream_overflow otherwise)"
 },
 "C01": {
  "status": "proved",
  "theorems": [
   "find_present",
   "find_absent",
   "find_shipped"
  ],
  "note": "The table is the sorted name list of indicators.yaml; strcmp and the bisection of ti_find_indicator are modelled; the shipped list is checked sorted and duplicate-free by evaluation of the model on that list."
 },
 "C02": {
  "status": "proved",
  "theorems": [
   "stream_dispatch",
   "no_stream_entry",
   "yaml_ok",
   "yaml_streams"
  ],
  "note": "For every session of calls on a stream made through the table."
 },
 "C40": {
  "status": "partial",
  "theorems": [
   "python_.*",
   "pyColumns_same",
   "rowsOf_length"
  ],
  "note": "Holds for series of at least start bars; python_short_violates proves that the wrapper raises ValueError on shorter series, and python_short_column that a short later column is read past its end."
 },
 "C44": {
  "status": "proved",
  "theorems": [
   "(gf|bf|ssmooth|roof|lf)_linear"
  ],
  "note": "Exact arithmetic."
 },
 "C39": {
  "status": "partial",
  "theorems": [
   "gf[1-3]_(value|settles|contract|stream_eq_batch|stream_eq_batch_partial)",
   "gf3_ignores_period",
   "gf1_(bounds|constant)",
   "gf3_bounds",
   "gf4_(value|contract|stream_eq_batch)_partial",
   "gf4_(constant|short_violates)",
   "bf[23]_(value|contract|stream_eq_batch)",
   "bf_(start_value|gain)",
   "(ssmooth|roof|lf|rema)_(value|contract|stream_eq_batch)",
   "ssmooth_settles",
   "rema_(constant|lambda_zero)"
  ],
  "note": "gf4 with fewer than five bars reads out of bounds (gf4_short_violates); gf3 ignores its period (gf3_ignores_period); the gains of bf2 and bf3 are one only up to the six decimals of the tables (bf_gain)."
 },
 "C45": {
  "status": "partial",
  "theorems": [
   "tsi_(contract|value|range|stream_value|stream_eq_batch|chunks|refuses|ref_eq_batch_partial)",
   "rmi_(contract|value|range|stream_eq_batch|ref_eq_batch)_partial",
   "rmi_(stream_value|violates|chunks|refuses|stream_overflow)"
  ],
  "note": "tsi in full except that its reference divides unguarded and truncates; rmi for integer lookback periods: a fractional one makes the batch call skip its first value (rmi_violates)"
 },
 "C46": {
  "status": "partial",
  "theorems": [
   "vwap_(contract|value|bounds|stream_value|chunks|refuses|ref_violates|stream_eq_batch_partial)",
   "evwma_(contract|value|bounds|stream_value|chunks|refuses|ref_ne_batch|stream_overflow|stream_eq_batch_partial)",
   "fi_(contract|value|stream_value|stream_eq_batch|chunks|refuses|ref_violates|ref_eq_batch_partial)",
   "pvt_(contract|value_partial|stream_eq_batch_partial|zero_volume|stream_violates|chunks|ref_violates|ref_eq_batch_partial)"
  ],
  "note": "pvt for inputs without zero volumes: with one the batch call falls back to 0 and the stream does not (pvt_stream_violates); streams of vwap and evwma for periods below INT_MAX"
 },
 "C47": {
  "status": "partial",
  "theorems": [
   "kc_(contract|value|ordered|stream_eq_batch|chunks|refuses|stream_refuses|stream_violates)",
   "vi_(contract|value|nonneg|stream_eq_batch|ref_eq_batch)_partial",
   "vi_(stream_value|chunks|refuses|stream_refuses|short_violates)",
   "mgdyn_(contract|value|constant|stream_eq_batch|chunks)"
  ],
  "note": "vi answers INVALID_OPTION on inputs of at most period bars (vi_short_violates), its stream does not; kc streams accept periods in [0,1) that the batch call refuses (kc_stream_violates)"
 },
 "C29": {
  "status": "proved",
  "theorems": [
   "hd_(contract|value|range|scale|stream_eq_batch)",
   "arsi_(range|value_partial|safe_partial|overflow|stream_violates|stream_eq_batch_partial|contract_partial)",
   "homodyne_.*"
  ],
  "note": "the ranges and the scale invariance hold for every input and every value of atan and acos; the definition of arsi is proved for cycle parts below 2^31/50"
 },
 "C48": {
  "status": "partial",
  "theorems": [
   "hwma_.*",
   "rmf_.*",
   "median_unique"
  ],
  "note": "Proved for periods 7 to 13 and for odd median periods. hwma's batch call indexes its coefficient table before it checks the period, so refused periods are undefined behaviour there (hwma_violates). The stream of hwma agrees in exact arithmetic only."
 },
 "C31": {
  "status": "partial",
  "theorems": [
   "(pc|ce|ichi|smi)_.*"
  ],
  "note": "Batch: pc, ce and smi from period 2 (pc and smi with period 1 read unassigned variables: pc_violates, smi_one_violates; ce with period 1 writes one value fewer than announced: ce_violates), smi for integer windows (smi_violates otherwise), ichi while its warm-up fits an int (ichi_overflow). The stream of smi truncates its smoothing periods, so it equals the batch call for integer periods."
 },
 "C49": {
  "status": "partial",
  "theorems": [
   "(ahma|ehma|idwma|lma|shmma)_.*",
   "ahrens_.*",
   "sharpMean_eq_line"
  ],
  "note": "Partial: shmma overflows from period 46341 on (shmma_overflow); the streams of ahma and ehma overflow for the largest int; the stream of lma equals the batch call for whole-number periods only (lma_stream_ne_batch)."
 },
 "C50": {
  "status": "partial",
  "theorems": [
   "(emsd|edcf)_.*"
  ],
  "note": "Partial: emsd overflows for the largest averaging period (emsd_overflow); edcf reads out of bounds for lengths with a fraction below one half (edcf_violates) and is proved for whole lengths and for the other fractions."
 },
 "C51": {
  "status": "partial",
  "theorems": [
   "(pbands|posc)_.*",
   "projection_encloses"
  ],
  "note": "Partial: from period 1024 on the sums of squares overflow an int (pbands_overflow, posc_overflow); the streams equal the batch calls for whole-number options (pbands_stream_ne_batch, posc_stream_ne_batch); the reference implementations read out of bounds for periods below 1 and for fractional ones."
 },
 "C52": {
  "status": "partial",
  "theorems": [
   "rvi_.*"
  ],
  "note": "Partial: from period 1024 on the sums of squares overflow an int (rvi_overflow), and so does the largest EMA period (rvi_ema_overflow); the stream equals the batch call for whole-number periods (rvi_stream_ne_batch)."
 },
 "C53": {
  "status": "partial",
  "theorems": [
   "pfe_.*"
  ],
  "note": "The value is proved for all accepted options. Partial: below period 10 the output leaves [-100, 100] (pfe_range_violates: a constant series gives -1000/p); the stream equals the batch call for whole-number EMA periods (pfe_stream_ne_batch) below the largest period (pfe_stream_overflow); the reference reads before its input for fractional periods (pfe_ref_violates)."
 },
 "C54": {
  "status": "partial",
  "theorems": [
   "cmi_.*",
   "rangeShare_bounds"
  ],
  "note": "Partial: with period 1 one value fewer is written (cmi_violates); the stream equals the batch call for whole-number periods, and with a fractional one it never forgets an extreme (cmi_stream_fractional, cmi_stream_ne_batch); the reference needs size >= period - 1 (cmi_ref_violates)."
 },
 "C55": {
  "status": "partial",
  "theorems": [
   "mhlma_.*"
  ],
  "note": "Partial: with average period 1 one value fewer is written and the mean has the first value added to it (mhlma_violates); the largest average period overflows (mhlma_overflow); the reference forms pointers before its input (mhlma_ref_violates)."
 },
 "C56": {
  "status": "partial",
  "theorems": [
   "hurst_.*",
   "cumRange_bounds"
  ],
  "note": "Partial: with a fractional period the batch call and the stream fail an assertion (hurst_violates, hurst_stream_violates) and the reference reads before its input (hurst_ref_violates); the reference has no guard against zero prices or a zero range."
 },
 "C57": {
  "status": "partial",
  "theorems": [
   "mesastoch_.*",
   "filtStoch_bounds",
   "highPass_unique",
   "smooths_unique"
  ],
  "note": "Partial: periods 1 and 2 fail an assertion (mesastoch_violates, mesastoch_stream_violates), the two largest overflow (mesastoch_overflow), the reference reads past its input when there are fewer than p + 2 prices (mesastoch_ref_violates)."
 },
 "C58": {
  "status": "partial",
  "theorems": [
   "frama_.*",
   "framaAvg_bounds",
   "fractalWeight_.*",
   "fractalDim_le_two"
  ],
  "note": "Partial: with a fractional period the batch call writes past the end of the output (frama_violates); the stream accepts average periods the batch call refuses (frama_stream_ne_batch). There is no reference implementation."
 },
 "C59": {
  "status": "partial",
  "theorems": [
   "hf_.*",
   "hampel_.*",
   "hfPick_hampel",
   "median_affine"
  ],
  "note": "Partial: from k = 2^30 on 2*k overflows (hf_overflow); everything else is proved for every window and threshold."
 },
 "C60": {
  "status": "partial",
  "theorems": [
   "hfema_.*",
   "hampelIncl_.*",
   "hfxPick_hampel"
  ],
  "note": "Partial: from k = 2^30 on 2*k overflows (hfema_overflow); everything else is proved."
 },
 "C61": {
  "status": "partial",
  "theorems": [
   "hfsma_.*",
   "hampelIncl_.*",
   "hfxPick_hampel"
  ],
  "note": "Partial: the stream keeps only 2k+1 prices and fails an assertion when the period is longer (hfsma_stream_violates); warm-ups beyond int overflow (hfsma_overflow)."
 },
 "C04": {
  "status": "partial",
  "theorems": [
   ".*_counts",
   ".*_accounts(_partial)?",
   ".*_writes(_partial|_violates)?"
  ],
  "note": "Progress: proved for all 55 streams and every accepted option vector (_counts). Number of values written: proved for every accepted option vector for 47 streams (_writes); ce and mhlma write one value fewer when their (average) period is 1 (ce_writes_violates, mhlma_writes_violates), and so does cmi (cmi_violates); hurst, cmi, dwma, copp, pfe and vi for the options for which the stream is proved safe (_accounts_partial)."
 },
 "C37": {
  "status": "partial",
  "theorems": [
   ".*_fractions(_partial|_violates)?",
   "rmi_stream_fractions_partial",
   "cmi_stream_fractional"
  ],
  "note": "_fractions: batch, start and stream ignore the fraction, any arithmetic (83 indicators); _fractions_partial: the same for options whose whole part is at least 1 (smaller ones are refused, but their start index depends on the fraction); _fractions_violates: the claim is false for bf2, bf3, dwma, edcf, copp, smi, rmi, hurst, frama and for the streams of lma, pfe, posc, pbands, rvi and cmi (cmi_stream_fractional). Options the code never converts to an int are outside the claim."
 },
 "C08": {
  "status": "partial",
  "theorems": [
   "localbuf_.*"
  ],
  "note": "localbuf_size and localbuf_remembers_partial cover every number of buffers, all positive sizes and all interleavings; missing: BUFFER_AT1 of buffers of more than 2^30 cells, where the code overflows int (localbuf_at1_violates)."
 },
 "C38": {
  "status": "partial",
  "theorems": [
   ".*_memory(_partial|_violates)?",
   "free_releases",
   "free_twice"
  ],
  "note": "All 55 streams, every pattern of failing allocations. 37 are clean without reservation; the others lose the stream when an exception escapes or a handler forgets it (evwma, pwma, rmi, swma, dwma), or delete it by a pointer to a base without virtual destructor (hfema, hfsma, ichi on failure; cmi always): the _violates theorems."
 },
 "C62": {
  "status": "partial",
  "theorems": [
   ".*_scratch(_partial|_violates)?"
  ],
  "note": "26 functions; ti_atr_ref without reservation, the others as long as no allocation fails: a failing one is used as a null pointer, or throws past the arrays already allocated (_violates)."
 },
 "C63": {
  "status": "partial",
  "theorems": [
   "(willr|bop|rsi|dx)_range_double",
   ".*_range_double_violates"
  ],
  "note": "willr, bop, rsi and dx are proved; di, adx, aroon, aroonosc, cmo, er, vhf, mfi, cmf, stoch and ultosc leave their ranges on concrete series (_violates)."
 },
 "C64": {
  "status": "partial",
  "theorems": [
   "(ema|medprice)_bounds_double",
   "ema_const_double",
   ".*_bounds_double_violates"
  ],
  "note": "ema (period >= 2) and medprice are proved; sma, wma, trima, wilders, vwma, ema(1) and typprice overshoot on concrete series (_violates)."
 },
 "C65": {
  "status": "partial",
  "theorems": [
   "(tr|atr|natr|dm)_nonneg_double",
   ".*_nonneg_double_violates"
  ],
  "note": "tr, atr, natr and dm are proved; var and stddev write negative values on concrete series (_violates)."
 },
 "C66": {
  "status": "partial",
  "theorems": [
   "ahma_stream_eq_batch_partial",
   "bf2_stream_eq_batch",
   "bf3_stream_eq_batch",
   "dwma_stream_eq_batch_partial",
   "er_stream_eq_batch_partial",
   "evwma_stream_eq_batch_partial",
   "gf2_stream_eq_batch",
   "gf3_stream_eq_batch",
   "gf4_stream_eq_batch_partial",
   "hd_stream_eq_batch",
   "idwma_stream_eq_batch",
   "kc_stream_eq_batch",
   "lf_stream_eq_batch",
   "mama_stream_eq_batch",
   "mgdyn_stream_eq_batch",
   "pbands_stream_eq_batch_partial",
   "posc_stream_eq_batch_partial",
   "pvt_stream_eq_batch_partial",
   "rema_stream_eq_batch",
   "roof_stream_eq_batch",
   "rvi_stream_eq_batch_partial",
   "shmma_stream_eq_batch_partial",
   "ssmooth_stream_eq_batch",
   "swma_stream_eq_batch",
   "t3_stream_eq_batch",
   "tsi_stream_eq_batch",
   "vi_stream_eq_batch_partial",
   "(copp|edcf|pfe|rmi|fi)_stream_double_partial",
   ".*_stream_double_violates",
   "gf1_stream_double"
  ],
  "note": "The listed stream_eq_batch theorems assume no law of arithmetic, or only that small integers are exact, which doubles satisfy (Proof/BinaryExact), so they hold for doubles bit for bit under the conditions each states (Props/DoublesAny reads them at doubles); copp, edcf, pfe, rmi (positive prices) and fi (first force not zero) are proved for doubles directly; gf1_stream_double: gf1, for all doubles. sma, atr, ehma, emsd, hwma, lma, vwap, fi and rmi differ on concrete series and pc, ichi, mhlma and smi when a price is NaN (_violates). Open: ce, arsi, hurst, mesastoch, frama, hf, hfsma, hfema, rmf, pwma, cmi, and pc, ichi, mhlma, smi on finite prices."
 },
 "C67": {
  "status": "proved",
  "theorems": [
   "(max|min)_value_double",
   "sum_exact_double"
  ],
  "note": ""
 },
 "C68": {
  "status": "proved",
  "theorems": [
   "csharp_stream",
   "csharp_stream_refuses"
  ],
  "note": ""
 },
 "C69": {
  "status": "partial",
  "theorems": [
   "csharp_default.*",
   "csharp_ema_violates",
   "csharp_medprice_violates",
   "winMean_looksBack"
  ],
  "note": "Proved for classes with one input (csharp_default_partial, csharp_default_whole). With several inputs the library gets the last input in place of every input (csharp_default, csharp_default_violates); the ema class has a window of one bar and shows the price (csharp_ema_violates)."
 },
 "C70": {
  "status": "partial",
  "theorems": [
   "python_arguments.*",
   "python_positional",
   "python_by_name",
   "python_names_partial",
   "python_keyword_violates",
   "python_unknown_keyword_violates",
   "python_series_violates",
   "python_typename_.*"
  ],
  "note": "Superfluous arguments are dropped silently (python_arguments_violates, python_unknown_keyword_violates); the option lambda of rema is a Python keyword; add, sub, mul, div and others have two inputs of the same name; an option printed with an exponent sign gives a type name that is no identifier."
 },
 "C71": {
  "status": "partial",
  "theorems": [
   "compare_zero",
   "equal_arrays_iff",
   "smoke_passes_partial",
   "smoke_violates",
   "equal_reals_.*",
   "smoke_stream_new"
  ],
  "note": "The verdict depends on the outputs of the batch function only (smoke_passes_partial, smoke_violates), and the comparison accepts a value of the wrong sign (equal_reals_violates)."
 },
 "C72": {
  "status": "partial",
  "theorems": [
   ".*_stream_in_place$",
   "simple1_in_place",
   "simple2_in_place",
   "ema_in_place",
   "mom_in_place",
   "max_in_place",
   "stream_in_place_violates",
   "(bf2|bf3|tsi|atr|kc|ce)_rereads$",
   "(wilders|dema|tema|trix|apo|ppo|macd|rmta|min|roc|rocr|lag|decay|edecay|rsi|stochrsi|msw)_in_place",
   "(sma|wilders|dema|tema|trix|apo|ppo|macd|rmta|min|roc|rocr|lag|decay|edecay|rsi|stochrsi|msw|sum|zlema|vhf|var|stddev|md|wma|cmo|kama|vidya|trima|dpo)_apart",
   "batch_in_place_violates",
   "(avgprice|medprice|typprice|wcprice|bop|marketfi|emv|crossany|crossover|ad|obv|wad|adosc)_in_place",
   "(tr|atr|natr)_in_place_partial",
   "bars_in_place_violates",
   "(avgprice|medprice|typprice|wcprice|bop|marketfi|emv|crossany|crossover|tr|atr|natr|ad|obv|wad|adosc|nvi|pvi)_apart",
   "(willr|aroon|aroonosc|fisher|mfi|cci|ultosc|fosc)_in_place",
   "dm_in_place_partial",
   "windows_in_place_violates",
   "(willr|aroon|aroonosc|fisher|mfi|cci|ultosc|fosc|dm|vwma|qstick|vosc|linreg|linregintercept|linregslope|tsf)_apart"
  ],
  "note": "48 streams and 47 kinds of batch functions are proved, four of them with a condition on the period or on the overwritten input; 25 batch functions and six of the seven streams that read a bar again have a counterexample. The _apart theorems check that the in-place models are the batch functions when the outputs go elsewhere. Missing: the remaining batch functions and frama."
 },
 "C73": {
  "status": "partial",
  "theorems": [
   "stream_counter",
   "stream_counter_partial",
   "stream_counter_violates"
  ],
  "note": "The property is false beyond INT_MAX + start bars; the exact limit is proved."
 },
 "C74": {
  "status": "partial",
  "theorems": [
   "(gf1|gf2|gf3|bf2|bf3)_gain",
   "(lf|gf4|rmta)_gain_partial",
   "(lf|gf4|rmta)_gain_violates",
   ".*_stream_gain$",
   "lf_stream_gain_partial"
  ],
  "note": "Exact arithmetic. The property is false for gf4 with periods above 30, lf with gamma above 1 and rmta with beta above 1: there divergence is proved for every such setting."
 },
 "C75": {
  "status": "partial",
  "theorems": [
   "(gf1|gf2|ssmooth)_cutoff",
   "ssmooth_stops_alternation",
   "(gf4|bf2|bf3)_cutoff_partial",
   "(gf3|gf4|bf2|bf3)_cutoff_violates",
   "power_unique",
   "(bf2|bf3|ssmooth)_mutes"
  ],
  "note": "Real arithmetic. The property is false for gf3, for gf4 above period 6 and for bf2 and bf3 at short periods; the _violates theorems give an upper bound for the power, which by power_unique excludes every larger value."
 },
 "C76": {
  "status": "partial",
  "theorems": [
   "(ema|wilders|t3|ehma|ahma|kama|gf1|gf2|gf3|bf2|bf3|ssmooth|rema)_follows",
   "(dema|tema|zlema|lf|rmta|gf4|frama|mama|mgdyn)_follows_partial",
   "(lf|mgdyn)_follows_violates",
   "(apo|macd|fi|roof|adosc|atr|kc)_rests",
   "(ppo|trix|natr|cvi)_rests_partial",
   "ppo_rests_violates",
   "rsi_freezes",
   "rmi_freezes_partial",
   "(dm|kvo|pfe)_rests",
   "(di|adx|mass|smi|stochrsi)_rests_partial",
   "dx_freezes",
   "vidya_freezes_partial",
   "vidya_follows_violates",
   "evwma_follows_partial",
   "evwma_follows_violates"
  ],
  "note": "Exact arithmetic; ssmooth, roof, rema and mgdyn over the reals. False for mgdyn, lf with damping 1, ppo at price 0 and, by C74, gf4 above period 30 and rmta with beta above 1. False also for vidya, pfe and evwma with a small gamma. tsi and the cycle measures are not covered."
 },
 "C77": {
  "status": "partial",
  "theorems": [
   "sma_units",
   "ema_units",
   "wilders_units",
   "max_units",
   "min_units",
   "lag_units",
   "avgprice_units",
   "medprice_units",
   "typprice_units",
   "wcprice_units",
   "dema_units_partial",
   "tema_units_partial",
   "zlema_units_partial",
   "wma_units_partial",
   "trima_units_partial",
   "hma_units_partial",
   "dwma_units_partial",
   "lma_units",
   "shmma_units_partial",
   "t3_units",
   "ehma_units",
   "kama_units",
   "hwma_units",
   "gf1_units",
   "gf2_units",
   "gf3_units",
   "bf2_units",
   "bf3_units",
   "ssmooth_units",
   "roof_units",
   "lf_units",
   "sum_units",
   "edcf_units_partial",
   "mom_units",
   "apo_units",
   "macd_units",
   "md_units",
   "stddev_units",
   "stderr_units",
   "dpo_units_partial",
   "rsi_units",
   "cmo_units",
   "vhf_units",
   "er_units",
   "tsi_units",
   "rmi_units_partial",
   "roc_units",
   "rocr_units",
   "ppo_units",
   "trix_units_partial",
   "volatility_units",
   "copp_units_partial",
   "vosc_units",
   "bbands_units",
   "pc_units_partial",
   "ichi_units_partial",
   "mhlma_units_partial",
   "psar_units",
   "kc_units",
   "ce_units_partial",
   "abands_units",
   "tr_units",
   "atr_units",
   "ao_units",
   "qstick_units",
   "dm_units",
   "wad_units",
   "fi_units",
   "stoch_units_partial",
   "willr_units",
   "aroon_units",
   "aroonosc_units",
   "fisher_units",
   "stochrsi_units_partial",
   "cci_units_partial",
   "cvi_units_partial",
   "mass_units_partial",
   "ultosc_units_partial",
   "bop_units",
   "crossover_units",
   "crossany_units",
   "smi_units_partial",
   "dx_units",
   "adx_units_partial",
   "adxr_units_partial",
   "di_units",
   "vi_units_partial",
   "cmi_units_partial",
   "kvo_units",
   "obv_units",
   "ad_units",
   "adosc_units",
   "cmf_units",
   "natr_units",
   "mfi_units",
   "nvi_units",
   "pvi_units",
   "pvt_units_partial",
   "vwma_units",
   "vwap_units",
   "evwma_units",
   "obv_volume",
   "ad_volume",
   "adosc_volume",
   "kvo_volume",
   "fi_volume",
   "pvt_volume_partial",
   "mfi_volume",
   "cmf_volume",
   "nvi_volume",
   "pvi_volume",
   "vwma_volume",
   "vwap_volume",
   "evwma_volume",
   "emv_units",
   "marketfi_units",
   "linreg_units_partial",
   "linregintercept_units_partial",
   "tsf_units_partial",
   "linregslope_units_partial",
   "fosc_units_partial",
   "rvi_units_partial",
   "pbands_units_partial",
   "posc_units_partial",
   "hf_units_partial",
   "hfema_units_partial",
   "hfsma_units_partial",
   "rmf_units",
   "ahma_units",
   "rema_units",
   "gf4_units_partial",
   "vidya_units_partial",
   "mgdyn_units",
   "edecay_units",
   "decay_units_partial",
   "kst_units_partial",
   "hurst_units_partial",
   "hd_units",
   "mama_units",
   "mesastoch_units_partial",
   "var_units",
   "emsd_units_partial",
   "arsi_units_partial",
   "rmta_units",
   "vwma_level_partial",
   "vwma_level_violates",
   "vwap_level_partial",
   "vwap_level_violates",
   "evwma_level_partial",
   "evwma_level_violates",
   "mama_level_violates",
   "decay_units_violates",
   "pfe_units_violates",
   "frama_units_partial",
   "idwma_units",
   "pwma_units",
   "swma_units",
   "msw_units_violates"
  ],
  "note": "All indicators but the element-wise functions, in exact arithmetic (frama, msw and the means with power or sine weights over the reals). _partial marks options or inputs left out, _violates the indicators for which the property is false."
 },
 "C78": {
  "status": "partial",
  "theorems": [
   "sma_window",
   "max_window",
   "min_window",
   "lag_window",
   "avgprice_window",
   "medprice_window",
   "typprice_window",
   "wcprice_window",
   "sum_window",
   "mom_window",
   "md_window",
   "var_window",
   "stddev_window",
   "cmo_window",
   "vhf_window",
   "er_window",
   "roc_window",
   "rocr_window",
   "volatility_window",
   "vosc_window",
   "abands_window",
   "ao_window",
   "qstick_window",
   "willr_window",
   "bop_window",
   "crossover_window",
   "crossany_window",
   "mfi_window",
   "cmf_window",
   "vwma_window",
   "emv_window",
   "marketfi_window",
   "lma_window",
   "wma_window_partial",
   "trima_window_partial",
   "hma_window_partial",
   "dwma_window_partial",
   "shmma_window_partial",
   "pc_window_partial",
   "cci_window_partial",
   "stoch_window_partial",
   "stderr_window",
   "bbands_window",
   "vwap_window",
   "pwma_window",
   "idwma_window",
   "swma_window",
   "copp_window_partial",
   "ichi_window_partial",
   "ultosc_window_partial",
   "edcf_window_partial",
   "hwma_window",
   "msw_window",
   "hurst_window_partial",
   "dpo_window_partial",
   "emsd_window_partial",
   "linreg_window_partial",
   "linregintercept_window_partial",
   "linregslope_window_partial",
   "tsf_window_partial",
   "fosc_window_partial",
   "pbands_window_partial",
   "hf_window_partial",
   "hfsma_window_partial",
   "aroon_window",
   "aroonosc_window",
   "vi_window_partial",
   "ema_fades",
   "dema_fades_partial",
   "tema_fades_partial",
   "zlema_fades_partial",
   "wilders_fades",
   "t3_fades",
   "ehma_fades",
   "kama_fades",
   "edecay_fades",
   "apo_fades",
   "macd_fades",
   "adosc_fades",
   "fi_fades",
   "tr_fades",
   "atr_fades",
   "kc_fades",
   "ce_fades_partial",
   "dm_fades",
   "gf1_fades",
   "gf3_fades",
   "lf_fades_partial",
   "rsi_fades_violates",
   "obv_fades_violates",
   "ad_fades_violates",
   "wad_fades_violates",
   "nvi_fades_violates",
   "pvi_fades_violates",
   "tsi_fades_violates",
   "decay_fades_violates",
   "abs_window",
   "acos_window",
   "asin_window",
   "atan_window",
   "ceil_window",
   "cos_window",
   "cosh_window",
   "exp_window",
   "floor_window",
   "ln_window",
   "log10_window",
   "round_window",
   "sin_window",
   "sinh_window",
   "sqrt_window",
   "tan_window",
   "tanh_window",
   "todeg_window",
   "torad_window",
   "add_window",
   "sub_window",
   "mul_window",
   "div_window",
   "gf2_fades",
   "bf2_fades",
   "bf3_fades",
   "rmta_fades_partial",
   "pfe_fades",
   "mhlma_fades_partial",
   "posc_fades_partial",
   "rmi_fades_violates",
   "ema_window_violates",
   "ssmooth_fades",
   "rema_fades",
   "vidya_fades_violates",
   "dx_fades_violates"
  ],
  "note": "In exact arithmetic; ssmooth and rema over the reals. _partial marks options or inputs left out, _violates the indicators that never forget. Not treated: the adaptive indicators whose rate depends on the bars (frama, mama, mgdyn, evwma), the ratios of fading averages, psar, roof and gf4."
 },
 "C79": {
  "status": "partial",
  "theorems": [
   "sma_mirror",
   "ema_mirror",
   "wilders_mirror",
   "max_mirror",
   "min_mirror",
   "lag_mirror",
   "avgprice_mirror",
   "medprice_mirror",
   "typprice_mirror",
   "wcprice_mirror",
   "dema_mirror_partial",
   "tema_mirror_partial",
   "zlema_mirror_partial",
   "wma_mirror_partial",
   "trima_mirror_partial",
   "hma_mirror_partial",
   "dwma_mirror_partial",
   "lma_mirror",
   "shmma_mirror_partial",
   "t3_mirror",
   "ehma_mirror",
   "kama_mirror",
   "hwma_mirror",
   "bbands_mirror",
   "pc_mirror_partial",
   "ichi_mirror_partial",
   "mhlma_mirror_partial",
   "kc_mirror",
   "ce_mirror_partial",
   "psar_mirror_partial",
   "ahma_mirror",
   "rema_mirror",
   "gf4_mirror_partial",
   "vidya_mirror_partial",
   "linreg_mirror_partial",
   "linregintercept_mirror_partial",
   "tsf_mirror_partial",
   "linregslope_mirror_partial",
   "gf1_mirror",
   "gf2_mirror",
   "gf3_mirror",
   "bf2_mirror",
   "bf3_mirror",
   "ssmooth_mirror",
   "roof_mirror",
   "lf_mirror",
   "sum_mirror",
   "rmta_mirror",
   "vwma_mirror",
   "mom_mirror",
   "apo_mirror",
   "macd_mirror",
   "dpo_mirror_partial",
   "cmo_mirror",
   "tsi_mirror",
   "ao_mirror",
   "qstick_mirror",
   "wad_mirror",
   "fi_mirror",
   "cci_mirror_partial",
   "bop_mirror",
   "smi_mirror_partial",
   "obv_mirror",
   "ad_mirror",
   "adosc_mirror",
   "cmf_mirror",
   "emv_mirror",
   "kvo_mirror_partial",
   "md_mirror",
   "var_mirror",
   "stddev_mirror",
   "stderr_mirror",
   "vhf_mirror",
   "er_mirror",
   "tr_mirror",
   "atr_mirror",
   "dm_mirror",
   "cvi_mirror_partial",
   "mass_mirror_partial",
   "marketfi_mirror",
   "dx_mirror",
   "adx_mirror_partial",
   "adxr_mirror_partial",
   "di_mirror",
   "vi_mirror_partial",
   "cmi_mirror_partial",
   "aroon_mirror",
   "aroonosc_mirror",
   "crossover_mirror",
   "crossany_mirror",
   "stoch_mirror_partial",
   "willr_mirror_partial",
   "ultosc_mirror_partial",
   "rsi_mirror_partial",
   "fisher_mirror_partial",
   "hf_mirror_partial",
   "hfema_mirror_partial",
   "hfsma_mirror_partial",
   "rmf_mirror",
   "pbands_mirror_partial",
   "posc_mirror_partial",
   "frama_mirror_partial",
   "mgdyn_mirror",
   "hd_mirror",
   "mama_mirror",
   "rmi_mirror_partial",
   "pfe_mirror_partial",
   "idwma_mirror",
   "pwma_mirror",
   "swma_mirror",
   "vwap_mirror",
   "evwma_mirror",
   "rsi_mirror_violates",
   "stoch_mirror_violates",
   "willr_mirror_violates",
   "rmi_mirror_violates",
   "psar_mirror_violates",
   "kvo_mirror_violates",
   "pfe_mirror_violates",
   "fisher_mirror_violates",
   "rvi_mirror_violates",
   "natr_mirror_violates",
   "abands_mirror_violates",
   "mfi_mirror_violates",
   "roc_mirror_violates",
   "decay_mirror_violates",
   "edecay_mirror_violates"
  ],
  "note": "Proved for about 105 indicators, the symmetry each of them has (Spec/Mirror.lean). Partial: where ties, flat windows or the level of the price break the symmetry (_violates), the _partial theorem names the inputs for which it holds (bars with a range, prices that move); some _partial theorems leave out periods that overflow, as their value theorems do. Real-valued for indicators that use log, powers or sines."
 },
 "C80": {
  "status": "proved",
  "theorems": [
   "mom_accurate",
   "medprice_accurate",
   "typprice_accurate",
   "avgprice_accurate",
   "wcprice_accurate",
   "tr_accurate",
   "ema_accurate",
   "wilders_accurate",
   "atr_accurate",
   "apo_accurate",
   "macd_accurate",
   "dema_accurate_partial",
   "tema_accurate_partial",
   "dpo_accurate_partial",
   "sum_accurate",
   "sma_accurate",
   "var_accurate",
   "sma_accurate_window_violates",
   "var_accurate_violates"
  ],
  "note": "Explicit error bounds against the exact (rational) value, for the binary64 model. The _violates theorems show what the bounds cannot be: relative to the prices in the window (sma) or to the variance itself (var). Other functions have no error bound yet."
 },
 "C81": {
  "status": "proved",
  "theorems": [
   "sum_rises",
   "sma_rises",
   "ema_rises",
   "wilders_rises",
   "max_rises",
   "min_rises",
   "lag_rises",
   "wma_rises_partial",
   "trima_rises_partial",
   "dwma_rises_partial",
   "medprice_rises",
   "typprice_rises",
   "avgprice_rises",
   "wcprice_rises",
   "pc_rises_partial",
   "ichi_rises_partial",
   "mhlma_rises_partial",
   "decay_rises",
   "edecay_rises",
   "vwma_rises",
   "vwap_rises",
   "evwma_rises",
   "gf1_rises",
   "gf3_rises",
   "dema_rises_violates",
   "tema_rises_violates",
   "zlema_rises_violates",
   "hma_rises_violates",
   "linreg_rises_violates",
   "tsf_rises_violates",
   "linregintercept_rises_violates",
   "lma_rises_violates",
   "hwma_rises_violates",
   "t3_rises_violates",
   "shmma_rises_violates",
   "ehma_rises_violates",
   "bf2_rises_violates",
   "rema_rises_violates",
   "ahma_rises_violates",
   "kama_rises_violates",
   "edcf_rises_violates"
  ],
  "note": "Exact arithmetic. Every function named in the statement has a theorem; the _violates theorems are two concrete series whose order the output reverses. _partial: the weight total or start index is assumed not to overflow."
 },
 "C82": {
  "status": "proved",
  "theorems": [
   "sum_addsUp",
   "sma_addsUp",
   "ema_addsUp",
   "wilders_addsUp",
   "lag_addsUp",
   "mom_addsUp",
   "wma_addsUp_partial",
   "trima_addsUp_partial",
   "dwma_addsUp_partial",
   "pwma_addsUp",
   "swma_addsUp",
   "lma_addsUp",
   "shmma_addsUp_partial",
   "t3_addsUp",
   "ehma_addsUp",
   "hwma_addsUp",
   "hma_addsUp_partial",
   "dema_addsUp_partial",
   "tema_addsUp_partial",
   "zlema_addsUp_partial",
   "apo_addsUp",
   "macd_addsUp",
   "medprice_addsUp",
   "typprice_addsUp",
   "avgprice_addsUp",
   "wcprice_addsUp",
   "qstick_addsUp",
   "dpo_addsUp_partial",
   "ao_addsUp",
   "linreg_addsUp_partial",
   "linregintercept_addsUp_partial",
   "linregslope_addsUp_partial",
   "tsf_addsUp_partial",
   "max_addsUp_violates",
   "roc_addsUp_violates",
   "kama_addsUp_violates"
  ],
  "note": "Exact arithmetic. _partial: the overflows and out-of-bounds periods are excluded. The recursive filters are covered by C44 (superposition)."
 },
 "C83": {
  "status": "proved",
  "theorems": [
   "sum_sma",
   "stddev_var",
   "stderr_stddev",
   "bbands_sma_stddev",
   "mom_lag",
   "roc_mom_lag",
   "rocr_roc",
   "lag_lag",
   "apo_ema",
   "ppo_apo_ema",
   "macd_apo_partial",
   "dema_ema_partial",
   "tema_ema_partial",
   "trix_ema_partial",
   "t3_ema",
   "dwma_wma_partial",
   "lma_wma_sma_partial",
   "hma_wma_partial",
   "vwma_sum",
   "vosc_sma",
   "qstick_sma",
   "ao_sma",
   "dpo_sma_partial",
   "pc_max_min_partial",
   "atr_tr_wilders",
   "natr_atr",
   "dx_dm",
   "adx_dx_wilders_partial",
   "adxr_adx_partial",
   "adosc_ad_ema",
   "linreg_slope_intercept_partial",
   "tsf_linreg_slope_partial",
   "fosc_tsf_partial",
   "crossany_crossover",
   "stoch_willr",
   "trima_sma_partial",
   "sma_sma",
   "max_max",
   "min_min",
   "ce_pc_atr_partial",
   "kc_ema_tr",
   "ichi_pc_partial",
   "abands_sma",
   "rsi_wilders",
   "cmo_sum",
   "stochrsi_rsi_partial",
   "er_mom_sum",
   "vhf_max_min_sum",
   "volatility_roc_stddev",
   "cci_typprice_sma_md_partial",
   "cvi_ema_roc_partial",
   "mass_ema_sum_partial",
   "copp_roc_wma_partial",
   "macd_apo_violates"
  ],
  "note": "Exact arithmetic; the statements mention only calls (Gives batch options input output). _partial: the overflows and out-of-bounds periods are excluded, and for macd_apo_partial the periods 12 and 26, for which macd_apo_violates shows the difference."
 },
 "C84": {
  "status": "partial",
  "theorems": [
   "Codegen.codegen_keeps",
   "Codegen.codegen_other",
   "Codegen.codegen_complete",
   "Codegen.codegen_twice",
   "Codegen.codegen_finishes_partial",
   "Codegen.codegen_fresh_partial",
   "Codegen.codegen_first_violates",
   "Codegen.codegen_stale_violates",
   "Codegen.codegen_old_violates",
   "Codegen.codegen_ref_violates",
   "Codegen.codegen_headers"
  ],
  "note": "The part of codegen.py that creates and completes source files (lines 213-422). codegen_finishes_partial and codegen_fresh_partial exclude the first entry being new and a new entry after one with a stream; the _violates theorems show what happens then, with --old on .cc sources and for the reference stub."
 },
 "C85": {
  "status": "proved",
  "theorems": [
   "fuzz_covers",
   "fuzz_clean",
   "fuzz_stream_clean",
   "fuzz_violates",
   "fuzz_series"
  ],
  "note": "std::pow of 4 is taken to be exact. fuzz_violates is part of the claim: a defect the fuzzer cannot find, for IEEE doubles."
 },
 "C86": {
  "status": "proved",
  "theorems": [
   "streams_safe",
   "streams_apart"
  ],
  "note": "Spec/World states the answers in terms of Indicator.session of each stream alone. That streams share no memory is part of the model (no writable static data in /repo/indicators and /repo/utils, one block tree per stream)."
 },
 "C87": {
  "status": "partial",
  "theorems": [
   ".*_missing",
   ".*_recovers(_partial)?",
   ".*_missing_violates",
   "Hides.not_poisons"
  ],
  "note": "_recovers: the functions for which the property holds. _missing: every later output is NaN, so the property is false for these; _missing_violates: the missing price does not show. Not treated: the functions of several series other than those named, the adaptive averages, the cycle measures and the streams (equal to the batch calls by C66 where proved)."
 },
 "C88": {
  "status": "partial",
  "theorems": [
   ".*_reports",
   ".*_reports_partial",
   ".*_reports_violates"
  ],
  "note": "Proved in full for 31 streams; false for 24 (`_violates`), for which the part that holds is proved as `_partial`. Memory asked for during ti_X_stream_run is not part of it."
 },
 "C89": {
  "status": "partial",
  "theorems": [
   "(sma|lma|lag|ema|wilders|t3|kama|ehma)_lags",
   "(wma|trima|dwma|hma|linreg|linregintercept|tsf|dema|tema|zlema)_lags_partial",
   "lag_unique",
   "(apo|mom)_trend",
   "(ahma|gf1|gf2|gf3|rema|ssmooth)_lags",
   "(shmma|lf)_lags_partial",
   "(macd|vwma|roof)_trend",
   "dpo_trend_partial",
   "rmta_lags_partial"
  ],
  "note": "Theorems with the suffix _partial need the period to stay within the range in which the value theorem of the function holds (int products that do not overflow; zlema needs a period of at least 3, hma at least 2). lag_unique shows that no function has two lags. lf needs a damping below one, rmta a beta between -1 and 1. Missing: the other averages (mhlma, gf4, bf2, bf3, vidya, mgdyn, mama, frama)."
 },
 "C90": {
  "status": "partial",
  "theorems": [
   "\\w+_repeats",
   "\\w+_repeats_partial",
   "(sma|sum|mom)_levels",
   "(obv|wad|ad)_drifts",
   "(nvi|pvi)_compounds"
  ],
  "note": "66 functions with a window, 20 recursive functions, 3 running totals, 2 compounded ones. Theorems with the suffix _partial carry the condition of the value theorem of the function (int products that do not overflow, a shortest period, a damping below one). Missing: vi (window shown in C78 only), pvt, the other recursive functions."
 }
}