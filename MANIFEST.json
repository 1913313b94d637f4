{
 "claims": [
  {
   "property": "C01",
   "status": "proved",
   "theorems": [
    "Verif.find_present",
    "Verif.find_absent",
    "Verif.find_shipped"
   ],
   "note": "The table is the sorted name list of indicators.yaml; strcmp and the bisection of ti_find_indicator are modelled; the shipped list is checked sorted and duplicate-free by evaluation of the model on that list."
  },
  {
   "property": "C02",
   "status": "proved",
   "theorems": [
    "Verif.stream_dispatch",
    "Verif.no_stream_entry",
    "Verif.yaml_ok",
    "Verif.yaml_streams"
   ],
   "note": "For every session of calls on a stream made through the table."
  },
  {
   "property": "C03",
   "status": "proved",
   "theorems": [
    "Verif.ahma_chunks",
    "Verif.ehma_chunks",
    "Verif.idwma_chunks",
    "Verif.lma_chunks",
    "Verif.shmma_chunks",
    "Verif.emsd_chunks",
    "Verif.edcf_chunks",
    "Verif.pc_chunks",
    "Verif.ce_chunks",
    "Verif.ichi_chunks",
    "Verif.smi_chunks",
    "Verif.hd_chunks",
    "Verif.arsi_chunks",
    "Verif.mama_chunks",
    "Verif.gf1_chunks",
    "Verif.gf2_chunks",
    "Verif.gf3_chunks",
    "Verif.gf4_chunks",
    "Verif.bf2_chunks",
    "Verif.bf3_chunks",
    "Verif.ssmooth_chunks",
    "Verif.roof_chunks",
    "Verif.lf_chunks",
    "Verif.rema_chunks",
    "Verif.fi_chunks",
    "Verif.mgdyn_chunks",
    "Verif.pvt_chunks",
    "Verif.kc_chunks",
    "Verif.tsi_chunks",
    "Verif.rmi_chunks",
    "Verif.vwap_chunks",
    "Verif.evwma_chunks",
    "Verif.vi_chunks",
    "Verif.mesastoch_chunks",
    "Verif.hurst_chunks",
    "Verif.frama_chunks",
    "Verif.hf_chunks",
    "Verif.hfema_chunks",
    "Verif.hfsma_chunks",
    "Verif.hwma_chunks",
    "Verif.rmf_chunks",
    "Verif.dwma_chunks",
    "Verif.rvi_chunks",
    "Verif.pbands_chunks",
    "Verif.posc_chunks",
    "Verif.er_chunks",
    "Verif.swma_chunks",
    "Verif.t3_chunks",
    "Verif.pwma_chunks",
    "Verif.copp_chunks",
    "Verif.sma_chunks",
    "Verif.pfe_chunks",
    "Verif.mhlma_chunks",
    "Verif.cmi_chunks",
    "Verif.atr_chunks"
   ],
   "note": "All 55 streams, every option vector, every arithmetic (dwma: under the hypothesis that truncation commutes with doubling as it does for doubles and in every ordered field)."
  },
  {
   "property": "C04",
   "status": "partial",
   "theorems": [
    "Verif.ahma_counts",
    "Verif.ehma_counts",
    "Verif.idwma_counts",
    "Verif.lma_counts",
    "Verif.shmma_counts",
    "Verif.emsd_counts",
    "Verif.edcf_counts",
    "Verif.pc_counts",
    "Verif.ce_counts",
    "Verif.ichi_counts",
    "Verif.smi_counts",
    "Verif.hd_counts",
    "Verif.arsi_counts",
    "Verif.mama_counts",
    "Verif.gf1_counts",
    "Verif.gf2_counts",
    "Verif.gf3_counts",
    "Verif.gf4_counts",
    "Verif.bf2_counts",
    "Verif.bf3_counts",
    "Verif.ssmooth_counts",
    "Verif.roof_counts",
    "Verif.lf_counts",
    "Verif.rema_counts",
    "Verif.fi_counts",
    "Verif.mgdyn_counts",
    "Verif.pvt_counts",
    "Verif.kc_counts",
    "Verif.tsi_counts",
    "Verif.rmi_counts",
    "Verif.vwap_counts",
    "Verif.evwma_counts",
    "Verif.vi_counts",
    "Verif.hurst_counts",
    "Verif.mesastoch_counts",
    "Verif.frama_counts",
    "Verif.hf_counts",
    "Verif.hfema_counts",
    "Verif.hfsma_counts",
    "Verif.atr_counts",
    "Verif.hwma_counts",
    "Verif.rmf_counts",
    "Verif.rvi_counts",
    "Verif.pbands_counts",
    "Verif.posc_counts",
    "Verif.er_counts",
    "Verif.dwma_counts",
    "Verif.pwma_counts",
    "Verif.swma_counts",
    "Verif.t3_counts",
    "Verif.copp_counts",
    "Verif.sma_counts",
    "Verif.pfe_counts",
    "Verif.cmi_counts",
    "Verif.mhlma_counts",
    "Verif.ahma_accounts_partial",
    "Verif.ehma_accounts_partial",
    "Verif.idwma_accounts",
    "Verif.lma_accounts_partial",
    "Verif.shmma_accounts_partial",
    "Verif.emsd_accounts_partial",
    "Verif.edcf_accounts_partial",
    "Verif.pc_accounts_partial",
    "Verif.ce_accounts_partial",
    "Verif.ichi_accounts_partial",
    "Verif.smi_accounts_partial",
    "Verif.hd_accounts",
    "Verif.arsi_accounts_partial",
    "Verif.mama_accounts",
    "Verif.gf1_accounts_partial",
    "Verif.gf2_accounts",
    "Verif.gf3_accounts",
    "Verif.bf2_accounts",
    "Verif.bf3_accounts",
    "Verif.ssmooth_accounts",
    "Verif.roof_accounts",
    "Verif.lf_accounts",
    "Verif.rema_accounts",
    "Verif.fi_accounts",
    "Verif.mgdyn_accounts",
    "Verif.kc_accounts",
    "Verif.tsi_accounts",
    "Verif.rmi_accounts_partial",
    "Verif.vwap_accounts_partial",
    "Verif.evwma_accounts_partial",
    "Verif.hurst_accounts_partial",
    "Verif.mesastoch_accounts_partial",
    "Verif.frama_accounts_partial",
    "Verif.hf_accounts_partial",
    "Verif.hfema_accounts_partial",
    "Verif.hfsma_accounts_partial",
    "Verif.atr_accounts",
    "Verif.hwma_accounts_partial",
    "Verif.rmf_accounts",
    "Verif.rvi_accounts_partial",
    "Verif.pbands_accounts_partial",
    "Verif.posc_accounts_partial",
    "Verif.er_accounts_partial",
    "Verif.dwma_accounts_partial",
    "Verif.pwma_accounts_partial",
    "Verif.swma_accounts",
    "Verif.t3_accounts",
    "Verif.copp_accounts_partial",
    "Verif.sma_accounts",
    "Verif.pfe_accounts_partial",
    "Verif.cmi_accounts_partial",
    "Verif.mhlma_accounts_partial",
    "Verif.pvt_accounts",
    "Verif.gf4_accounts",
    "Verif.vi_accounts",
    "Verif.ahma_writes",
    "Verif.ehma_writes",
    "Verif.idwma_writes",
    "Verif.lma_writes",
    "Verif.shmma_writes",
    "Verif.emsd_writes",
    "Verif.edcf_writes",
    "Verif.pc_writes",
    "Verif.ce_writes_partial",
    "Verif.ichi_writes",
    "Verif.smi_writes",
    "Verif.hd_writes",
    "Verif.arsi_writes",
    "Verif.mama_writes",
    "Verif.gf1_writes",
    "Verif.gf2_writes",
    "Verif.gf3_writes",
    "Verif.gf4_writes",
    "Verif.bf2_writes",
    "Verif.bf3_writes",
    "Verif.ssmooth_writes",
    "Verif.roof_writes",
    "Verif.lf_writes",
    "Verif.rema_writes",
    "Verif.fi_writes",
    "Verif.mgdyn_writes",
    "Verif.pvt_writes",
    "Verif.kc_writes",
    "Verif.tsi_writes",
    "Verif.rmi_writes",
    "Verif.vwap_writes",
    "Verif.evwma_writes",
    "Verif.mesastoch_writes",
    "Verif.frama_writes",
    "Verif.hf_writes",
    "Verif.hfema_writes",
    "Verif.hfsma_writes",
    "Verif.atr_writes",
    "Verif.hwma_writes",
    "Verif.rmf_writes",
    "Verif.rvi_writes",
    "Verif.pbands_writes",
    "Verif.posc_writes",
    "Verif.er_writes",
    "Verif.pwma_writes",
    "Verif.swma_writes",
    "Verif.t3_writes",
    "Verif.sma_writes",
    "Verif.mhlma_writes_partial",
    "Verif.ce_writes_violates",
    "Verif.mhlma_writes_violates"
   ],
   "note": "Progress: proved for all 55 streams and every accepted option vector (_counts). Number of values written: proved for every accepted option vector for 47 streams (_writes); ce and mhlma write one value fewer when their (average) period is 1 (ce_writes_violates, mhlma_writes_violates), and so does cmi (cmi_violates); hurst, cmi, dwma, copp, pfe and vi for the options for which the stream is proved safe (_accounts_partial)."
  },
  {
   "property": "C05",
   "status": "proved",
   "theorems": [
    "Verif.ring_remembers",
    "Verif.ring_get_bounds",
    "Verif.ring2_remembers"
   ],
   "note": "any arithmetic, any size and history"
  },
  {
   "property": "C06",
   "status": "proved",
   "theorems": [
    "Verif.ring_find_max",
    "Verif.ring_find_min",
    "Verif.ring2_find_max"
   ],
   "note": "ring2_find_max: the two-cell specialisation ignores the period"
  },
  {
   "property": "C07",
   "status": "proved",
   "theorems": [
    "Verif.tibuf_remembers",
    "Verif.tibuf_qpush_remembers",
    "Verif.tibuf_oldest",
    "Verif.tibuf_uninit",
    "Verif.tibuf_empty",
    "Verif.tibuf_sum"
   ],
   "note": ""
  },
  {
   "property": "C08",
   "status": "partial",
   "theorems": [
    "Verif.localbuf_remembers_partial",
    "Verif.localbuf_at1_violates",
    "Verif.localbuf_size",
    "Verif.localbuf_forward"
   ],
   "note": "localbuf_size and localbuf_remembers_partial cover every number of buffers, all positive sizes and all interleavings; missing: BUFFER_AT1 of buffers of more than 2^30 cells, where the code overflows int (localbuf_at1_violates)."
  },
  {
   "property": "C09",
   "status": "partial",
   "theorems": [
    "Verif.abs_value",
    "Verif.acos_value",
    "Verif.asin_value",
    "Verif.atan_value",
    "Verif.ceil_value",
    "Verif.cos_value",
    "Verif.cosh_value",
    "Verif.exp_value",
    "Verif.floor_value",
    "Verif.ln_value",
    "Verif.log10_value",
    "Verif.round_value",
    "Verif.sin_value",
    "Verif.sinh_value",
    "Verif.sqrt_value",
    "Verif.tan_value",
    "Verif.tanh_value",
    "Verif.todeg_value",
    "Verif.torad_value",
    "Verif.add_value",
    "Verif.sub_value",
    "Verif.mul_value",
    "Verif.div_value",
    "Verif.trunc_value_partial",
    "Verif.trunc_out_of_range",
    "Verif.trunc_violates"
   ],
   "note": "proved for all but ti_trunc, which converts through int: outside the range of int it is undefined (trunc_out_of_range, witness trunc_violates)"
  },
  {
   "property": "C10",
   "status": "proved",
   "theorems": [
    "Verif.avgprice_value",
    "Verif.medprice_value",
    "Verif.typprice_value",
    "Verif.wcprice_value",
    "Verif.bop_value",
    "Verif.marketfi_value",
    "Verif.emv_value",
    "Verif.tr_value",
    "Verif.bop_range",
    "Verif.tr_nonneg"
   ],
   "note": ""
  },
  {
   "property": "C11",
   "status": "proved",
   "theorems": [
    "Verif.sum_accurate",
    "Verif.sum_exact_double",
    "Verif.sum_apart",
    "Verif.sum_window",
    "Verif.sum_mirror",
    "Verif.sum_missing",
    "Verif.sum_fractions",
    "Verif.sum_rises",
    "Verif.sum_addsUp",
    "Verif.sum_sma",
    "Verif.sum_repeats",
    "Verif.sum_levels",
    "Verif.sum_contract",
    "Verif.sum_refuses",
    "Verif.sum_value",
    "Verif.sum_units",
    "Verif.sma_accounts",
    "Verif.sma_accurate",
    "Verif.sma_accurate_window_violates",
    "Verif.sma_bounds_double_violates",
    "Verif.sma_stream_double_violates",
    "Verif.sma_stream_in_place",
    "Verif.sma_apart",
    "Verif.sma_lags",
    "Verif.sma_window",
    "Verif.sma_mirror",
    "Verif.sma_missing",
    "Verif.sma_fractions",
    "Verif.sma_counts",
    "Verif.sma_rises",
    "Verif.sma_addsUp",
    "Verif.sma_sma",
    "Verif.sma_memory",
    "Verif.sma_repeats",
    "Verif.sma_levels",
    "Verif.sma_reports",
    "Verif.sma_contract",
    "Verif.sma_refuses",
    "Verif.sma_chunks",
    "Verif.sma_value",
    "Verif.sma_stream_value",
    "Verif.sma_stream_eq_batch",
    "Verif.sma_units",
    "Verif.sma_writes"
   ],
   "note": ""
  },
  {
   "property": "C12",
   "status": "proved",
   "theorems": [
    "Verif.ema_value",
    "Verif.ema_bounds",
    "Verif.ema_const"
   ],
   "note": ""
  },
  {
   "property": "C13",
   "status": "partial",
   "theorems": [
    "Verif.dema_value_partial",
    "Verif.tema_value_partial",
    "Verif.dema_overflow",
    "Verif.tema_overflow",
    "Verif.trix_value_partial",
    "Verif.trix_period_one",
    "Verif.zlema_value_partial"
   ],
   "note": "dema/tema: all periods whose start index fits an int (beyond it dema_overflow/tema_overflow: signed overflow); trix: periods >= 2, since period 1 violates the definition (trix_period_one)"
  },
  {
   "property": "C14",
   "status": "partial",
   "theorems": [
    "Verif.wilders_value",
    "Verif.wilders_bounds",
    "Verif.wma_value_partial",
    "Verif.wma_bounds",
    "Verif.wma_overflow",
    "Verif.vwma_value",
    "Verif.vwma_bounds"
   ],
   "note": "complete except wma with period*(period+1) > INT_MAX, where the code overflows (wma_overflow)"
  },
  {
   "property": "C15",
   "status": "proved",
   "theorems": [
    "Verif.max_contract",
    "Verif.min_contract",
    "Verif.max_refuses",
    "Verif.min_refuses",
    "Verif.max_value",
    "Verif.min_value",
    "Verif.max_ref_eq_batch",
    "Verif.min_ref_eq_batch"
   ],
   "note": ""
  },
  {
   "property": "C16",
   "status": "partial",
   "theorems": [
    "Verif.willr_value",
    "Verif.willr_range",
    "Verif.stoch_value_partial",
    "Verif.stoch_range_partial",
    "Verif.stochrsi_value_partial",
    "Verif.stochrsi_range_partial",
    "Verif.aroon_value",
    "Verif.aroon_range",
    "Verif.aroonosc_value",
    "Verif.aroonosc_range",
    "Verif.vhf_value",
    "Verif.vhf_range",
    "Verif.fisher_value",
    "Verif.fisher_log_arg",
    "Verif.stoch_overflow",
    "Verif.stochrsi_overflow"
   ],
   "note": "complete except stoch/stochrsi periods whose start index does not fit an int, where the code overflows (stoch_overflow, stochrsi_overflow)"
  },
  {
   "property": "C17",
   "status": "partial",
   "theorems": [
    "Verif.mfi_value",
    "Verif.mfi_range",
    "Verif.rsi_value",
    "Verif.rsi_range",
    "Verif.cmo_value",
    "Verif.cmo_range",
    "Verif.rmi_value_partial",
    "Verif.rmi_range_partial"
   ],
   "note": "rmi for integer lookback periods"
  },
  {
   "property": "C18",
   "status": "partial",
   "theorems": [
    "Verif.tr_value",
    "Verif.tr_nonneg",
    "Verif.atr_chunks",
    "Verif.atr_ref_eq_batch",
    "Verif.atr_value",
    "Verif.atr_stream_value",
    "Verif.atr_stream_eq_batch",
    "Verif.atr_nonneg",
    "Verif.natr_value"
   ],
   "note": "the stream multiplies the first sum by 1/period where the batch divides by period, so stream = batch is proved in exact arithmetic, not bit for bit"
  },
  {
   "property": "C19",
   "status": "partial",
   "theorems": [
    "Verif.dm_value",
    "Verif.di_value",
    "Verif.dx_value",
    "Verif.adx_value_partial",
    "Verif.adxr_value_partial",
    "Verif.dm_nonneg",
    "Verif.dm_exclusive_partial",
    "Verif.dm_exclusive_violates",
    "Verif.di_range",
    "Verif.dx_range",
    "Verif.adx_adxr_range",
    "Verif.adx_overflow",
    "Verif.adxr_overflow"
   ],
   "note": "complete except: plus and minus are both positive when the two moves are equal (dm_exclusive_violates); adx/adxr periods whose start index overflows int"
  },
  {
   "property": "C20",
   "status": "proved",
   "theorems": [
    "Verif.obv_value",
    "Verif.nvi_value",
    "Verif.pvi_value",
    "Verif.ad_value",
    "Verif.wad_value",
    "Verif.nvi_follows",
    "Verif.nvi_pvi_pos"
   ],
   "note": ""
  },
  {
   "property": "C21",
   "status": "proved",
   "theorems": [
    "Verif.var_value",
    "Verif.stddev_value",
    "Verif.stderr_value",
    "Verif.bbands_value",
    "Verif.volatility_value",
    "Verif.md_value",
    "Verif.var_zero_iff",
    "Verif.stddev_sq_var",
    "Verif.bbands_order",
    "Verif.md_nonneg"
   ],
   "note": "sqrt enters through LawfulSqrt, which real square root satisfies"
  },
  {
   "property": "C22",
   "status": "partial",
   "theorems": [
    "Verif.linreg_contract_partial",
    "Verif.linregintercept_contract_partial",
    "Verif.tsf_contract_partial",
    "Verif.linregslope_contract_partial",
    "Verif.fosc_contract_partial",
    "Verif.linreg_value_partial",
    "Verif.linregintercept_value_partial",
    "Verif.linregslope_value_partial",
    "Verif.tsf_value_partial",
    "Verif.fosc_value_partial",
    "Verif.linreg_overflow",
    "Verif.linregintercept_overflow",
    "Verif.linregslope_overflow",
    "Verif.tsf_overflow",
    "Verif.fosc_overflow",
    "Verif.linreg_linear_partial",
    "Verif.fosc_linear_partial",
    "Verif.best_line_exists_unique"
   ],
   "note": "every period from 2 up to 46340; beyond that the code squares the period in int and overflows (the *_overflow theorems), which is the only part of the claim that fails"
  },
  {
   "property": "C23",
   "status": "proved",
   "theorems": [
    "Verif.apo_value",
    "Verif.ppo_value",
    "Verif.ppo_apo",
    "Verif.macd_value"
   ],
   "note": "macd: options 12/26 use the coefficients 0.15/0.075 hard-coded in the source"
  },
  {
   "property": "C24",
   "status": "proved",
   "theorems": [
    "Verif.lag_value",
    "Verif.mom_value",
    "Verif.roc_value",
    "Verif.rocr_value",
    "Verif.decay_value",
    "Verif.edecay_value",
    "Verif.decayVal_spec",
    "Verif.edecayVal_spec"
   ],
   "note": ""
  },
  {
   "property": "C25",
   "status": "proved",
   "theorems": [
    "Verif.crossover_value",
    "Verif.crossany_value",
    "Verif.crossany_symm"
   ],
   "note": ""
  },
  {
   "property": "C26",
   "status": "proved",
   "theorems": [
    "Verif.psar_value",
    "Verif.psar_side",
    "Verif.sarAt_af"
   ],
   "note": ""
  },
  {
   "property": "C27",
   "status": "partial",
   "theorems": [
    "Verif.kama_value",
    "Verif.kama_bounds",
    "Verif.vidya_value_partial",
    "Verif.vidya_bounds_partial",
    "Verif.vidya_violates",
    "Verif.vidya_bounds_violates",
    "Verif.mama_contract",
    "Verif.mama_stream_eq_batch",
    "Verif.mama_value",
    "Verif.mama_within",
    "Verif.mama_ref_eq_batch_partial",
    "Verif.frama_value_partial",
    "Verif.frama_bounds_partial",
    "Verif.fractalWeight_bounds"
   ],
   "note": "kama is proved in full; vidya's weight is not in [0,1] in general (vidya_bounds_violates), the bound is proved where it is; mama and fama in full; frama for whole periods"
  },
  {
   "property": "C28",
   "status": "partial",
   "theorems": [
    "Verif.er_contract",
    "Verif.er_value",
    "Verif.er_range",
    "Verif.er_stream_value_partial",
    "Verif.er_stream_eq_batch_partial",
    "Verif.er_stream_overflow",
    "Verif.er_refuses"
   ],
   "note": "batch for every accepted period; stream for integer-valued periods below INT_MAX (er_stream_overflow otherwise)"
  },
  {
   "property": "C29",
   "status": "proved",
   "theorems": [
    "Verif.hd_contract",
    "Verif.hd_stream_eq_batch",
    "Verif.hd_value",
    "Verif.hd_range",
    "Verif.hd_scale",
    "Verif.arsi_contract_partial",
    "Verif.arsi_value_partial",
    "Verif.arsi_range",
    "Verif.arsi_safe_partial",
    "Verif.arsi_overflow",
    "Verif.arsi_stream_eq_batch_partial",
    "Verif.arsi_stream_violates",
    "Verif.homodyne_sig",
    "Verif.homodyne_unique",
    "Verif.homodyne_scale",
    "Verif.homodyne_exists",
    "Verif.homodyne_mul"
   ],
   "note": "the ranges and the scale invariance hold for every input and every value of atan and acos; the definition of arsi is proved for cycle parts below 2^31/50"
  },
  {
   "property": "C30",
   "status": "partial",
   "theorems": [
    "Verif.kst_runs_partial",
    "Verif.trima_value_partial",
    "Verif.trima_bounds_partial",
    "Verif.hma_value_partial",
    "Verif.kst_value_partial",
    "Verif.trima_overflow",
    "Verif.hma_overflow",
    "Verif.hma_violates",
    "Verif.kst_violates",
    "Verif.t3_value",
    "Verif.t3_stream_value",
    "Verif.dwma_value_partial",
    "Verif.dwma_bounds_partial",
    "Verif.copp_value_partial",
    "Verif.copp_stream_value_partial",
    "Verif.dwma_violates",
    "Verif.copp_stream_overflow",
    "Verif.pwma_value",
    "Verif.pwma_stream_value_partial",
    "Verif.pwma_bounds",
    "Verif.swma_value",
    "Verif.swma_denominator_pos",
    "Verif.swma_constant_partial"
   ],
   "note": "trima for every period whose weight total fits int; hma for periods 2..46340 (period 1 reads out of bounds: hma_violates); kst for inputs longer than its start index (shorter ones read out of bounds: kst_violates); dwma and copp for integer-valued periods (dwma_violates: a fractional period writes out of bounds); t3 in full"
  },
  {
   "property": "C31",
   "status": "partial",
   "theorems": [
    "Verif.pc_accounts_partial",
    "Verif.ce_accounts_partial",
    "Verif.ichi_accounts_partial",
    "Verif.smi_accounts_partial",
    "Verif.pc_refuses",
    "Verif.pc_violates",
    "Verif.pc_chunks",
    "Verif.ce_refuses",
    "Verif.ce_chunks",
    "Verif.ichi_refuses",
    "Verif.ichi_chunks",
    "Verif.ichi_overflow",
    "Verif.ichi_ref_violates",
    "Verif.smi_refuses",
    "Verif.pc_value_partial",
    "Verif.pc_contract_partial",
    "Verif.pc_stream_value",
    "Verif.pc_stream_eq_batch_partial",
    "Verif.pc_ref_eq_batch_partial",
    "Verif.pc_contains_partial",
    "Verif.ce_value_partial",
    "Verif.ce_contract_partial",
    "Verif.ce_stream_eq_batch_partial",
    "Verif.ce_violates",
    "Verif.ce_ref_eq_batch_partial",
    "Verif.ce_ref_ne_batch",
    "Verif.ichi_value_partial",
    "Verif.ichi_contract_partial",
    "Verif.ichi_stream_eq_batch_partial",
    "Verif.ichi_ref_eq_batch_partial",
    "Verif.smi_ok",
    "Verif.smi_value_partial",
    "Verif.smi_contract_partial",
    "Verif.smi_stream_value",
    "Verif.smi_stream_eq_batch_partial",
    "Verif.smi_range_partial",
    "Verif.smi_ref_eq_batch_partial",
    "Verif.smi_chunks",
    "Verif.smi_one_violates",
    "Verif.smi_violates",
    "Verif.smi_rests_partial",
    "Verif.pc_stream_double_violates",
    "Verif.ichi_stream_double_violates",
    "Verif.smi_stream_double_violates",
    "Verif.ce_fades_partial",
    "Verif.smi_fractions_violates",
    "Verif.pc_stream_in_place",
    "Verif.ichi_stream_in_place",
    "Verif.smi_stream_in_place",
    "Verif.ce_rereads",
    "Verif.pc_window_partial",
    "Verif.ichi_window_partial",
    "Verif.pc_mirror_partial",
    "Verif.ichi_mirror_partial",
    "Verif.ce_mirror_partial",
    "Verif.smi_mirror_partial",
    "Verif.ce_fractions",
    "Verif.ichi_fractions",
    "Verif.pc_fractions_partial",
    "Verif.pc_counts",
    "Verif.ce_counts",
    "Verif.ichi_counts",
    "Verif.smi_counts",
    "Verif.pc_rises_partial",
    "Verif.ichi_rises_partial",
    "Verif.pc_max_min_partial",
    "Verif.ce_pc_atr_partial",
    "Verif.ichi_pc_partial",
    "Verif.ce_memory",
    "Verif.ichi_memory_partial",
    "Verif.ichi_memory_violates",
    "Verif.pc_memory",
    "Verif.smi_memory",
    "Verif.pc_repeats_partial",
    "Verif.ichi_repeats_partial",
    "Verif.ce_reports_partial",
    "Verif.ce_reports_violates",
    "Verif.ichi_reports_partial",
    "Verif.ichi_reports_violates",
    "Verif.pc_reports",
    "Verif.smi_reports_partial",
    "Verif.smi_reports_violates",
    "Verif.ce_ref_scratch_partial",
    "Verif.ce_ref_scratch_violates",
    "Verif.ichi_ref_scratch_partial",
    "Verif.ichi_ref_scratch_violates",
    "Verif.smi_ref_scratch_partial",
    "Verif.smi_ref_scratch_violates",
    "Verif.pc_units_partial",
    "Verif.ichi_units_partial",
    "Verif.ce_units_partial",
    "Verif.smi_units_partial",
    "Verif.pc_writes",
    "Verif.ce_writes_partial",
    "Verif.ichi_writes",
    "Verif.smi_writes",
    "Verif.ce_writes_violates"
   ],
   "note": "Batch: pc, ce and smi from period 2 (pc and smi with period 1 read unassigned variables: pc_violates, smi_one_violates; ce with period 1 writes one value fewer than announced: ce_violates), smi for integer windows (smi_violates otherwise), ichi while its warm-up fits an int (ichi_overflow). The stream of smi truncates its smoothing periods, so it equals the batch call for integer periods."
  },
  {
   "property": "C32",
   "status": "partial",
   "theorems": [
    "Verif.psar_contract",
    "Verif.kama_contract",
    "Verif.vidya_contract_partial",
    "Verif.ahma_contract",
    "Verif.ehma_contract",
    "Verif.emsd_contract_partial",
    "Verif.idwma_contract",
    "Verif.lma_contract",
    "Verif.shmma_contract_partial",
    "Verif.edcf_contract_partial",
    "Verif.avgprice_contract",
    "Verif.medprice_contract",
    "Verif.typprice_contract",
    "Verif.wcprice_contract",
    "Verif.bop_contract",
    "Verif.marketfi_contract",
    "Verif.emv_contract",
    "Verif.crossany_contract",
    "Verif.crossover_contract",
    "Verif.lag_contract",
    "Verif.mom_contract",
    "Verif.roc_contract",
    "Verif.rocr_contract",
    "Verif.decay_contract",
    "Verif.edecay_contract",
    "Verif.pc_contract_partial",
    "Verif.ce_contract_partial",
    "Verif.ichi_contract_partial",
    "Verif.smi_contract_partial",
    "Verif.hd_contract",
    "Verif.mama_contract",
    "Verif.arsi_contract_partial",
    "Verif.dm_contract",
    "Verif.di_contract",
    "Verif.dx_contract",
    "Verif.adx_contract_partial",
    "Verif.adxr_contract_partial",
    "Verif.ema_contract",
    "Verif.dema_contract_partial",
    "Verif.tema_contract_partial",
    "Verif.trix_contract_partial",
    "Verif.zlema_contract_partial",
    "Verif.wilders_contract",
    "Verif.apo_contract",
    "Verif.ppo_contract",
    "Verif.macd_contract",
    "Verif.rmta_contract",
    "Verif.max_contract",
    "Verif.min_contract",
    "Verif.willr_contract",
    "Verif.fisher_contract",
    "Verif.aroon_contract",
    "Verif.aroonosc_contract",
    "Verif.vhf_contract",
    "Verif.stoch_contract_partial",
    "Verif.stochrsi_contract_partial",
    "Verif.gf1_contract",
    "Verif.gf2_contract",
    "Verif.gf3_contract",
    "Verif.bf2_contract",
    "Verif.bf3_contract",
    "Verif.ssmooth_contract",
    "Verif.roof_contract",
    "Verif.lf_contract",
    "Verif.rema_contract",
    "Verif.gf4_contract_partial",
    "Verif.fi_contract",
    "Verif.mgdyn_contract",
    "Verif.pvt_contract",
    "Verif.kc_contract",
    "Verif.tsi_contract",
    "Verif.evwma_contract",
    "Verif.vi_contract_partial",
    "Verif.rmi_contract_partial",
    "Verif.vwap_contract",
    "Verif.hurst_contract_partial",
    "Verif.mesastoch_contract_partial",
    "Verif.frama_contract_partial",
    "Verif.hf_contract_partial",
    "Verif.hfema_contract_partial",
    "Verif.hfsma_contract_partial",
    "Verif.cci_contract_partial",
    "Verif.cvi_contract_partial",
    "Verif.mass_contract_partial",
    "Verif.ultosc_contract_partial",
    "Verif.abands_contract",
    "Verif.msw_contract",
    "Verif.hwma_contract",
    "Verif.rmf_contract",
    "Verif.rvi_contract_partial",
    "Verif.pbands_contract_partial",
    "Verif.posc_contract_partial",
    "Verif.er_contract",
    "Verif.swma_contract",
    "Verif.t3_contract",
    "Verif.dwma_contract_partial",
    "Verif.pwma_contract",
    "Verif.copp_contract_partial",
    "Verif.var_contract",
    "Verif.stddev_contract",
    "Verif.stderr_contract",
    "Verif.bbands_contract",
    "Verif.volatility_contract",
    "Verif.md_contract",
    "Verif.sum_contract",
    "Verif.sma_contract",
    "Verif.pfe_contract",
    "Verif.cmi_contract_partial",
    "Verif.mhlma_contract_partial",
    "Verif.linreg_contract_partial",
    "Verif.linregintercept_contract_partial",
    "Verif.tsf_contract_partial",
    "Verif.linregslope_contract_partial",
    "Verif.fosc_contract_partial",
    "Verif.obv_contract",
    "Verif.nvi_contract",
    "Verif.pvi_contract",
    "Verif.ad_contract",
    "Verif.wad_contract",
    "Verif.ao_contract",
    "Verif.adosc_contract",
    "Verif.kvo_contract",
    "Verif.mfi_contract",
    "Verif.cmf_contract",
    "Verif.vosc_contract",
    "Verif.qstick_contract",
    "Verif.dpo_contract_partial",
    "Verif.trima_contract_partial",
    "Verif.hma_contract_partial",
    "Verif.wma_contract_partial",
    "Verif.vwma_contract",
    "Verif.rsi_contract",
    "Verif.cmo_contract",
    "Verif.tr_contract",
    "Verif.atr_contract",
    "Verif.natr_contract",
    "Verif.sma_accurate_window_violates",
    "Verif.var_accurate_violates",
    "Verif.vidya_violates",
    "Verif.vidya_bounds_violates",
    "Verif.idwma_ref_violates",
    "Verif.lma_ref_violates",
    "Verif.shmma_ref_violates",
    "Verif.edcf_violates",
    "Verif.csharp_default_violates",
    "Verif.csharp_ema_violates",
    "Verif.csharp_medprice_violates",
    "Verif.pc_violates",
    "Verif.ichi_ref_violates",
    "Verif.ce_violates",
    "Verif.smi_one_violates",
    "Verif.smi_violates",
    "Verif.Codegen.codegen_first_violates",
    "Verif.Codegen.codegen_stale_violates",
    "Verif.Codegen.codegen_old_violates",
    "Verif.Codegen.codegen_ref_violates",
    "Verif.ppo_rests_violates",
    "Verif.lf_follows_violates",
    "Verif.vidya_follows_violates",
    "Verif.vidya_fades_violates",
    "Verif.dx_fades_violates",
    "Verif.evwma_follows_violates",
    "Verif.mgdyn_follows_violates",
    "Verif.stream_counter_violates",
    "Verif.gf3_cutoff_violates",
    "Verif.gf4_cutoff_violates",
    "Verif.bf2_cutoff_violates",
    "Verif.bf3_cutoff_violates",
    "Verif.arsi_stream_violates",
    "Verif.dm_exclusive_violates",
    "Verif.pc_stream_double_violates",
    "Verif.ichi_stream_double_violates",
    "Verif.mhlma_stream_double_violates",
    "Verif.smi_stream_double_violates",
    "Verif.emsd_stream_double_violates",
    "Verif.sma_bounds_double_violates",
    "Verif.wma_bounds_double_violates",
    "Verif.trima_bounds_double_violates",
    "Verif.wilders_bounds_double_violates",
    "Verif.ema_bounds_double_violates",
    "Verif.vwma_bounds_double_violates",
    "Verif.typprice_bounds_double_violates",
    "Verif.cmo_range_double_violates",
    "Verif.er_range_double_violates",
    "Verif.vhf_range_double_violates",
    "Verif.mfi_range_double_violates",
    "Verif.cmf_range_double_violates",
    "Verif.stoch_range_double_violates",
    "Verif.di_range_double_violates",
    "Verif.adx_range_double_violates",
    "Verif.aroon_range_double_violates",
    "Verif.aroonosc_range_double_violates",
    "Verif.ultosc_range_double_violates",
    "Verif.var_nonneg_double_violates",
    "Verif.stddev_nonneg_double_violates",
    "Verif.sma_stream_double_violates",
    "Verif.atr_stream_double_violates",
    "Verif.ehma_stream_double_violates",
    "Verif.hwma_stream_double_violates",
    "Verif.lma_stream_double_violates",
    "Verif.vwap_stream_double_violates",
    "Verif.fi_stream_double_violates",
    "Verif.rmi_stream_double_violates",
    "Verif.trunc_violates",
    "Verif.zlema_violates",
    "Verif.rsi_fades_violates",
    "Verif.obv_fades_violates",
    "Verif.ad_fades_violates",
    "Verif.wad_fades_violates",
    "Verif.nvi_fades_violates",
    "Verif.pvi_fades_violates",
    "Verif.tsi_fades_violates",
    "Verif.decay_fades_violates",
    "Verif.rmi_fades_violates",
    "Verif.ema_window_violates",
    "Verif.gf4_short_violates",
    "Verif.vi_short_violates",
    "Verif.pvt_ref_violates",
    "Verif.fi_ref_violates",
    "Verif.rmi_violates",
    "Verif.kc_stream_violates",
    "Verif.pvt_stream_violates",
    "Verif.vwap_ref_violates",
    "Verif.mesastoch_violates",
    "Verif.mesastoch_stream_violates",
    "Verif.hurst_violates",
    "Verif.hurst_stream_violates",
    "Verif.hurst_ref_violates",
    "Verif.mesastoch_ref_violates",
    "Verif.frama_violates",
    "Verif.bf2_fractions_violates",
    "Verif.bf3_fractions_violates",
    "Verif.dwma_fractions_violates",
    "Verif.edcf_fractions_violates",
    "Verif.copp_fractions_violates",
    "Verif.smi_fractions_violates",
    "Verif.rmi_fractions_violates",
    "Verif.hurst_fractions_violates",
    "Verif.frama_fractions_violates",
    "Verif.lma_fractions_violates",
    "Verif.pfe_fractions_violates",
    "Verif.posc_fractions_violates",
    "Verif.pbands_fractions_violates",
    "Verif.rvi_fractions_violates",
    "Verif.fuzz_violates",
    "Verif.lf_gain_violates",
    "Verif.gf4_gain_violates",
    "Verif.rmta_gain_violates",
    "Verif.hfsma_stream_violates",
    "Verif.bars_in_place_violates",
    "Verif.stream_in_place_violates",
    "Verif.batch_in_place_violates",
    "Verif.windows_in_place_violates",
    "Verif.localbuf_at1_violates",
    "Verif.rsi_mirror_violates",
    "Verif.stoch_mirror_violates",
    "Verif.willr_mirror_violates",
    "Verif.rmi_mirror_violates",
    "Verif.psar_mirror_violates",
    "Verif.kvo_mirror_violates",
    "Verif.pfe_mirror_violates",
    "Verif.fisher_mirror_violates",
    "Verif.rvi_mirror_violates",
    "Verif.natr_mirror_violates",
    "Verif.abands_mirror_violates",
    "Verif.mfi_mirror_violates",
    "Verif.roc_mirror_violates",
    "Verif.decay_mirror_violates",
    "Verif.edecay_mirror_violates",
    "Verif.rsi_missing_violates",
    "Verif.cmo_missing_violates",
    "Verif.max_missing_violates",
    "Verif.min_missing_violates",
    "Verif.decay_missing_violates",
    "Verif.edecay_missing_violates",
    "Verif.obv_missing_violates",
    "Verif.tr_missing_violates",
    "Verif.atr_missing_violates",
    "Verif.cvi_violates",
    "Verif.ultosc_violates",
    "Verif.abands_ref_violates",
    "Verif.python_arguments_violates",
    "Verif.python_unknown_keyword_violates",
    "Verif.python_keyword_violates",
    "Verif.python_series_violates",
    "Verif.python_typename_violates",
    "Verif.python_short_violates",
    "Verif.dema_rises_violates",
    "Verif.tema_rises_violates",
    "Verif.zlema_rises_violates",
    "Verif.hma_rises_violates",
    "Verif.linreg_rises_violates",
    "Verif.tsf_rises_violates",
    "Verif.linregintercept_rises_violates",
    "Verif.lma_rises_violates",
    "Verif.hwma_rises_violates",
    "Verif.t3_rises_violates",
    "Verif.shmma_rises_violates",
    "Verif.ehma_rises_violates",
    "Verif.bf2_rises_violates",
    "Verif.rema_rises_violates",
    "Verif.ahma_rises_violates",
    "Verif.kama_rises_violates",
    "Verif.edcf_rises_violates",
    "Verif.max_addsUp_violates",
    "Verif.roc_addsUp_violates",
    "Verif.kama_addsUp_violates",
    "Verif.hwma_violates",
    "Verif.dwma_ref_violates",
    "Verif.dwma_ref_short_violates",
    "Verif.kst_ref_short_violates",
    "Verif.pbands_ref_violates",
    "Verif.posc_ref_violates",
    "Verif.pbands_ref_fractional_violates",
    "Verif.posc_ref_fractional_violates",
    "Verif.macd_apo_violates",
    "Verif.ahma_memory_violates",
    "Verif.arsi_memory_violates",
    "Verif.cmi_memory_violates",
    "Verif.dwma_memory_violates",
    "Verif.edcf_memory_violates",
    "Verif.emsd_memory_violates",
    "Verif.er_memory_violates",
    "Verif.evwma_memory_violates",
    "Verif.hf_memory_violates",
    "Verif.hfema_memory_violates",
    "Verif.hfsma_memory_violates",
    "Verif.ichi_memory_violates",
    "Verif.idwma_memory_violates",
    "Verif.mhlma_memory_violates",
    "Verif.pwma_memory_violates",
    "Verif.rmi_memory_violates",
    "Verif.shmma_memory_violates",
    "Verif.swma_memory_violates",
    "Verif.ahma_reports_violates",
    "Verif.arsi_reports_violates",
    "Verif.ce_reports_violates",
    "Verif.cmi_reports_violates",
    "Verif.copp_reports_violates",
    "Verif.dwma_reports_violates",
    "Verif.edcf_reports_violates",
    "Verif.emsd_reports_violates",
    "Verif.er_reports_violates",
    "Verif.frama_reports_violates",
    "Verif.hf_reports_violates",
    "Verif.hfema_reports_violates",
    "Verif.hfsma_reports_violates",
    "Verif.ichi_reports_violates",
    "Verif.idwma_reports_violates",
    "Verif.kc_reports_violates",
    "Verif.mhlma_reports_violates",
    "Verif.pbands_reports_violates",
    "Verif.posc_reports_violates",
    "Verif.rmf_reports_violates",
    "Verif.rvi_reports_violates",
    "Verif.shmma_reports_violates",
    "Verif.smi_reports_violates",
    "Verif.vi_reports_violates",
    "Verif.abands_scratch_violates",
    "Verif.adxr_scratch_violates",
    "Verif.cci_scratch_violates",
    "Verif.cvi_scratch_violates",
    "Verif.hma_scratch_violates",
    "Verif.mass_scratch_violates",
    "Verif.mfi_scratch_violates",
    "Verif.stoch_scratch_violates",
    "Verif.stochrsi_scratch_violates",
    "Verif.ultosc_scratch_violates",
    "Verif.ce_ref_scratch_violates",
    "Verif.cmi_ref_scratch_violates",
    "Verif.copp_ref_scratch_violates",
    "Verif.hfema_ref_scratch_violates",
    "Verif.hfsma_ref_scratch_violates",
    "Verif.ichi_ref_scratch_violates",
    "Verif.kst_ref_scratch_violates",
    "Verif.mama_ref_scratch_violates",
    "Verif.mhlma_ref_scratch_violates",
    "Verif.pbands_ref_scratch_violates",
    "Verif.posc_ref_scratch_violates",
    "Verif.rmi_ref_scratch_violates",
    "Verif.smi_ref_scratch_violates",
    "Verif.tsi_ref_scratch_violates",
    "Verif.vwap_ref_scratch_violates",
    "Verif.dwma_violates",
    "Verif.smoke_violates",
    "Verif.equal_reals_violates",
    "Verif.pfe_range_violates",
    "Verif.pfe_ref_violates",
    "Verif.cmi_violates",
    "Verif.cmi_ref_violates",
    "Verif.mhlma_violates",
    "Verif.mhlma_ref_violates",
    "Verif.vwma_level_violates",
    "Verif.vwap_level_violates",
    "Verif.evwma_level_violates",
    "Verif.mama_level_violates",
    "Verif.decay_units_violates",
    "Verif.pfe_units_violates",
    "Verif.msw_units_violates",
    "Verif.dpo_violates",
    "Verif.hma_violates",
    "Verif.kst_violates",
    "Verif.ce_writes_violates",
    "Verif.mhlma_writes_violates",
    "Verif.ahma_stream_overflow",
    "Verif.ehma_stream_overflow",
    "Verif.emsd_overflow",
    "Verif.shmma_overflow",
    "Verif.ichi_overflow",
    "Verif.arsi_overflow",
    "Verif.adx_overflow",
    "Verif.adxr_overflow",
    "Verif.dema_overflow",
    "Verif.tema_overflow",
    "Verif.stoch_overflow",
    "Verif.stochrsi_overflow",
    "Verif.evwma_stream_overflow",
    "Verif.rmi_stream_overflow",
    "Verif.mesastoch_overflow",
    "Verif.hf_overflow",
    "Verif.hfema_overflow",
    "Verif.hfsma_overflow",
    "Verif.cci_overflow",
    "Verif.cvi_overflow",
    "Verif.mass_overflow",
    "Verif.rvi_overflow",
    "Verif.pbands_overflow",
    "Verif.posc_overflow",
    "Verif.rvi_ema_overflow",
    "Verif.posc_ema_overflow",
    "Verif.er_stream_overflow",
    "Verif.swma_overflow",
    "Verif.copp_stream_overflow",
    "Verif.pfe_stream_overflow",
    "Verif.mhlma_overflow",
    "Verif.linearRegression_overflow",
    "Verif.linreg_overflow",
    "Verif.linregintercept_overflow",
    "Verif.linregslope_overflow",
    "Verif.tsf_overflow",
    "Verif.fosc_overflow",
    "Verif.adosc_overflow",
    "Verif.trima_overflow",
    "Verif.hma_overflow",
    "Verif.wma_overflow"
   ],
   "note": "All 161 indicators are modelled; _violates and _overflow are the accepted options for which the code breaks the claim, _contract_partial theorems state the options for which it holds."
  },
  {
   "property": "C33",
   "status": "partial",
   "theorems": [
    "Verif.psar_refuses",
    "Verif.kama_refuses",
    "Verif.vidya_refuses",
    "Verif.ahma_refuses",
    "Verif.ahma_ref_refuses",
    "Verif.ehma_refuses",
    "Verif.idwma_refuses",
    "Verif.idwma_ref_refuses",
    "Verif.lma_refuses",
    "Verif.lma_stream_refuses",
    "Verif.shmma_refuses",
    "Verif.shmma_stream_refuses",
    "Verif.emsd_refuses",
    "Verif.emsd_ref_refuses",
    "Verif.edcf_refuses",
    "Verif.lag_refuses",
    "Verif.mom_refuses",
    "Verif.roc_refuses",
    "Verif.rocr_refuses",
    "Verif.csharp_stream_refuses",
    "Verif.pc_refuses",
    "Verif.ce_refuses",
    "Verif.ichi_refuses",
    "Verif.smi_refuses",
    "Verif.arsi_refuses",
    "Verif.mama_refuses",
    "Verif.dm_refuses",
    "Verif.di_refuses",
    "Verif.dx_refuses",
    "Verif.adx_refuses",
    "Verif.adxr_refuses",
    "Verif.ema_refuses",
    "Verif.dema_refuses",
    "Verif.tema_refuses",
    "Verif.trix_refuses",
    "Verif.zlema_refuses",
    "Verif.wilders_refuses",
    "Verif.apo_refuses",
    "Verif.ppo_refuses",
    "Verif.macd_refuses",
    "Verif.rmta_refuses",
    "Verif.max_refuses",
    "Verif.min_refuses",
    "Verif.willr_refuses",
    "Verif.fisher_refuses",
    "Verif.aroon_refuses",
    "Verif.aroonosc_refuses",
    "Verif.vhf_refuses",
    "Verif.stochrsi_refuses",
    "Verif.stoch_refuses",
    "Verif.gf1_refuses",
    "Verif.gf2_refuses",
    "Verif.gf3_refuses",
    "Verif.gf4_refuses",
    "Verif.bf2_refuses",
    "Verif.bf3_refuses",
    "Verif.lf_refuses",
    "Verif.rema_refuses",
    "Verif.fi_refuses",
    "Verif.kc_refuses",
    "Verif.kc_stream_refuses",
    "Verif.tsi_refuses",
    "Verif.rmi_refuses",
    "Verif.vwap_refuses",
    "Verif.evwma_refuses",
    "Verif.vi_refuses",
    "Verif.vi_stream_refuses",
    "Verif.hurst_refuses",
    "Verif.mesastoch_refuses",
    "Verif.frama_refuses",
    "Verif.frama_stream_refuses",
    "Verif.hf_refuses",
    "Verif.hf_stream_refuses",
    "Verif.hfema_refuses",
    "Verif.hfema_stream_refuses",
    "Verif.hfsma_refuses",
    "Verif.hfsma_stream_refuses",
    "Verif.cci_refuses",
    "Verif.cvi_refuses",
    "Verif.mass_refuses",
    "Verif.ultosc_refuses",
    "Verif.abands_refuses",
    "Verif.msw_refuses",
    "Verif.python_refuses",
    "Verif.hwma_refuses_partial",
    "Verif.rmf_refuses",
    "Verif.dwma_ref_refuses",
    "Verif.copp_ref_refuses",
    "Verif.kst_ref_refuses",
    "Verif.rvi_refuses",
    "Verif.rvi_stream_refuses",
    "Verif.pbands_refuses",
    "Verif.pbands_stream_refuses",
    "Verif.posc_refuses",
    "Verif.posc_stream_refuses",
    "Verif.er_refuses",
    "Verif.swma_refuses",
    "Verif.t3_refuses",
    "Verif.dwma_refuses",
    "Verif.dwma_stream_refuses",
    "Verif.pwma_refuses",
    "Verif.copp_refuses",
    "Verif.copp_stream_refuses",
    "Verif.var_refuses",
    "Verif.stddev_refuses",
    "Verif.stderr_refuses",
    "Verif.bbands_refuses",
    "Verif.volatility_refuses",
    "Verif.md_refuses",
    "Verif.sum_refuses",
    "Verif.sma_refuses",
    "Verif.pfe_refuses",
    "Verif.pfe_stream_refuses",
    "Verif.cmi_refuses",
    "Verif.cmi_stream_refuses",
    "Verif.mhlma_refuses",
    "Verif.linreg_refuses",
    "Verif.linregintercept_refuses",
    "Verif.tsf_refuses",
    "Verif.linregslope_refuses",
    "Verif.fosc_refuses",
    "Verif.adosc_refuses_partial",
    "Verif.kvo_refuses",
    "Verif.mfi_refuses",
    "Verif.cmf_refuses",
    "Verif.vosc_refuses",
    "Verif.qstick_refuses",
    "Verif.dpo_refuses",
    "Verif.trima_refuses",
    "Verif.hma_refuses",
    "Verif.kst_refuses",
    "Verif.wma_refuses",
    "Verif.vwma_refuses",
    "Verif.rsi_refuses",
    "Verif.cmo_refuses",
    "Verif.atr_refuses",
    "Verif.natr_refuses"
   ],
   "note": "All indicators with options are covered; where batch and stream validate differently the theorems are named _stream_violates/_stream_ne_batch."
  },
  {
   "property": "C34",
   "status": "partial",
   "theorems": [
    "Verif.psar_contract",
    "Verif.kama_contract",
    "Verif.vidya_contract_partial",
    "Verif.ahma_contract",
    "Verif.ehma_contract",
    "Verif.emsd_contract_partial",
    "Verif.idwma_contract",
    "Verif.lma_contract",
    "Verif.shmma_contract_partial",
    "Verif.edcf_contract_partial",
    "Verif.avgprice_contract",
    "Verif.medprice_contract",
    "Verif.typprice_contract",
    "Verif.wcprice_contract",
    "Verif.bop_contract",
    "Verif.marketfi_contract",
    "Verif.emv_contract",
    "Verif.crossany_contract",
    "Verif.crossover_contract",
    "Verif.lag_contract",
    "Verif.mom_contract",
    "Verif.roc_contract",
    "Verif.rocr_contract",
    "Verif.decay_contract",
    "Verif.edecay_contract",
    "Verif.pc_contract_partial",
    "Verif.ce_contract_partial",
    "Verif.ichi_contract_partial",
    "Verif.smi_contract_partial",
    "Verif.hd_contract",
    "Verif.mama_contract",
    "Verif.arsi_contract_partial",
    "Verif.dm_contract",
    "Verif.di_contract",
    "Verif.dx_contract",
    "Verif.adx_contract_partial",
    "Verif.adxr_contract_partial",
    "Verif.ema_contract",
    "Verif.dema_contract_partial",
    "Verif.tema_contract_partial",
    "Verif.trix_contract_partial",
    "Verif.zlema_contract_partial",
    "Verif.wilders_contract",
    "Verif.apo_contract",
    "Verif.ppo_contract",
    "Verif.macd_contract",
    "Verif.rmta_contract",
    "Verif.max_contract",
    "Verif.min_contract",
    "Verif.willr_contract",
    "Verif.fisher_contract",
    "Verif.aroon_contract",
    "Verif.aroonosc_contract",
    "Verif.vhf_contract",
    "Verif.stoch_contract_partial",
    "Verif.stochrsi_contract_partial",
    "Verif.gf1_contract",
    "Verif.gf2_contract",
    "Verif.gf3_contract",
    "Verif.bf2_contract",
    "Verif.bf3_contract",
    "Verif.ssmooth_contract",
    "Verif.roof_contract",
    "Verif.lf_contract",
    "Verif.rema_contract",
    "Verif.gf4_contract_partial",
    "Verif.fi_contract",
    "Verif.mgdyn_contract",
    "Verif.pvt_contract",
    "Verif.kc_contract",
    "Verif.tsi_contract",
    "Verif.evwma_contract",
    "Verif.vi_contract_partial",
    "Verif.rmi_contract_partial",
    "Verif.vwap_contract",
    "Verif.hurst_contract_partial",
    "Verif.mesastoch_contract_partial",
    "Verif.frama_contract_partial",
    "Verif.hf_contract_partial",
    "Verif.hfema_contract_partial",
    "Verif.hfsma_contract_partial",
    "Verif.cci_contract_partial",
    "Verif.cvi_contract_partial",
    "Verif.mass_contract_partial",
    "Verif.ultosc_contract_partial",
    "Verif.abands_contract",
    "Verif.msw_contract",
    "Verif.hwma_contract",
    "Verif.rmf_contract",
    "Verif.rvi_contract_partial",
    "Verif.pbands_contract_partial",
    "Verif.posc_contract_partial",
    "Verif.er_contract",
    "Verif.swma_contract",
    "Verif.t3_contract",
    "Verif.dwma_contract_partial",
    "Verif.pwma_contract",
    "Verif.copp_contract_partial",
    "Verif.var_contract",
    "Verif.stddev_contract",
    "Verif.stderr_contract",
    "Verif.bbands_contract",
    "Verif.volatility_contract",
    "Verif.md_contract",
    "Verif.sum_contract",
    "Verif.sma_contract",
    "Verif.pfe_contract",
    "Verif.cmi_contract_partial",
    "Verif.mhlma_contract_partial",
    "Verif.linreg_contract_partial",
    "Verif.linregintercept_contract_partial",
    "Verif.tsf_contract_partial",
    "Verif.linregslope_contract_partial",
    "Verif.fosc_contract_partial",
    "Verif.obv_contract",
    "Verif.nvi_contract",
    "Verif.pvi_contract",
    "Verif.ad_contract",
    "Verif.wad_contract",
    "Verif.ao_contract",
    "Verif.adosc_contract",
    "Verif.kvo_contract",
    "Verif.mfi_contract",
    "Verif.cmf_contract",
    "Verif.vosc_contract",
    "Verif.qstick_contract",
    "Verif.dpo_contract_partial",
    "Verif.trima_contract_partial",
    "Verif.hma_contract_partial",
    "Verif.wma_contract_partial",
    "Verif.vwma_contract",
    "Verif.rsi_contract",
    "Verif.cmo_contract",
    "Verif.tr_contract",
    "Verif.atr_contract",
    "Verif.natr_contract"
   ],
   "note": "Causality is the third part of Contract; partial where the contract is."
  },
  {
   "property": "C35",
   "status": "partial",
   "theorems": [
    "Verif.ahma_stream_eq_batch_partial",
    "Verif.idwma_stream_eq_batch",
    "Verif.shmma_stream_eq_batch_partial",
    "Verif.ehma_stream_eq_batch_partial",
    "Verif.lma_stream_eq_batch_partial",
    "Verif.emsd_stream_eq_batch_partial",
    "Verif.edcf_stream_eq_batch_partial",
    "Verif.pc_stream_eq_batch_partial",
    "Verif.ce_stream_eq_batch_partial",
    "Verif.ichi_stream_eq_batch_partial",
    "Verif.smi_stream_eq_batch_partial",
    "Verif.hd_stream_eq_batch",
    "Verif.mama_stream_eq_batch",
    "Verif.arsi_stream_eq_batch_partial",
    "Verif.gf2_stream_eq_batch",
    "Verif.gf3_stream_eq_batch",
    "Verif.gf4_stream_eq_batch_partial",
    "Verif.bf2_stream_eq_batch",
    "Verif.bf3_stream_eq_batch",
    "Verif.ssmooth_stream_eq_batch",
    "Verif.roof_stream_eq_batch",
    "Verif.lf_stream_eq_batch",
    "Verif.rema_stream_eq_batch",
    "Verif.gf1_stream_eq_batch_partial",
    "Verif.mgdyn_stream_eq_batch",
    "Verif.kc_stream_eq_batch",
    "Verif.tsi_stream_eq_batch",
    "Verif.evwma_stream_eq_batch_partial",
    "Verif.vi_stream_eq_batch_partial",
    "Verif.pvt_stream_eq_batch_partial",
    "Verif.fi_stream_eq_batch",
    "Verif.rmi_stream_eq_batch_partial",
    "Verif.vwap_stream_eq_batch_partial",
    "Verif.hurst_stream_eq_batch_partial",
    "Verif.mesastoch_stream_eq_batch_partial",
    "Verif.frama_stream_eq_batch_partial",
    "Verif.hf_stream_eq_batch_partial",
    "Verif.hfsma_stream_eq_batch_partial",
    "Verif.hfema_stream_eq_batch_partial",
    "Verif.hwma_stream_eq_batch_partial",
    "Verif.rmf_stream_eq_batch",
    "Verif.rvi_stream_eq_batch_partial",
    "Verif.pbands_stream_eq_batch_partial",
    "Verif.posc_stream_eq_batch_partial",
    "Verif.er_stream_eq_batch_partial",
    "Verif.swma_stream_eq_batch",
    "Verif.t3_stream_eq_batch",
    "Verif.dwma_stream_eq_batch_partial",
    "Verif.pwma_stream_eq_batch_partial",
    "Verif.copp_stream_eq_batch_partial",
    "Verif.sma_stream_eq_batch",
    "Verif.pfe_stream_eq_batch_partial",
    "Verif.cmi_stream_eq_batch_partial",
    "Verif.mhlma_stream_eq_batch_partial",
    "Verif.atr_stream_eq_batch"
   ],
   "note": "All 55 streams; _partial theorems exclude the options for which stream and batch differ, witnessed by the _stream_ne_batch and _stream_violates theorems listed with the single indicators."
  },
  {
   "property": "C36",
   "status": "partial",
   "theorems": [
    "Verif.ahma_ref_eq_batch_partial",
    "Verif.ehma_ref_eq_batch_partial",
    "Verif.idwma_ref_eq_batch_partial",
    "Verif.lma_ref_eq_batch_partial",
    "Verif.shmma_ref_eq_batch_partial",
    "Verif.emsd_ref_eq_batch_partial",
    "Verif.pc_ref_eq_batch_partial",
    "Verif.ce_ref_eq_batch_partial",
    "Verif.ichi_ref_eq_batch_partial",
    "Verif.smi_ref_eq_batch_partial",
    "Verif.mama_ref_eq_batch_partial",
    "Verif.max_ref_eq_batch",
    "Verif.min_ref_eq_batch",
    "Verif.pvt_ref_eq_batch_partial",
    "Verif.fi_ref_eq_batch_partial",
    "Verif.tsi_ref_eq_batch_partial",
    "Verif.rmi_ref_eq_batch_partial",
    "Verif.vi_ref_eq_batch_partial",
    "Verif.hurst_ref_eq_batch_partial",
    "Verif.mesastoch_ref_eq_batch_partial",
    "Verif.hf_ref_eq_batch_partial",
    "Verif.hfema_ref_eq_batch_partial",
    "Verif.hfsma_ref_eq_batch_partial",
    "Verif.abands_ref_eq_batch_partial",
    "Verif.hwma_ref_eq_batch",
    "Verif.dwma_ref_eq_batch_partial",
    "Verif.copp_ref_eq_batch_partial",
    "Verif.kst_ref_eq_batch_partial",
    "Verif.pbands_ref_eq_batch_partial",
    "Verif.posc_ref_eq_batch_partial",
    "Verif.er_ref_eq_batch_partial",
    "Verif.t3_ref_eq_batch_partial",
    "Verif.swma_ref_eq_batch_partial",
    "Verif.pfe_ref_eq_batch_partial",
    "Verif.cmi_ref_eq_batch_partial",
    "Verif.mhlma_ref_eq_batch_partial",
    "Verif.atr_ref_eq_batch",
    "Verif.idwma_ref_violates",
    "Verif.lma_ref_violates",
    "Verif.shmma_ref_violates",
    "Verif.ichi_ref_violates",
    "Verif.Codegen.codegen_ref_violates",
    "Verif.pvt_ref_violates",
    "Verif.fi_ref_violates",
    "Verif.vwap_ref_violates",
    "Verif.hurst_ref_violates",
    "Verif.mesastoch_ref_violates",
    "Verif.abands_ref_violates",
    "Verif.dwma_ref_violates",
    "Verif.dwma_ref_short_violates",
    "Verif.kst_ref_short_violates",
    "Verif.pbands_ref_violates",
    "Verif.posc_ref_violates",
    "Verif.pfe_ref_violates",
    "Verif.cmi_ref_violates",
    "Verif.mhlma_ref_violates",
    "Verif.ehma_ref_ne_batch",
    "Verif.ahma_ref_ne_batch",
    "Verif.emsd_ref_ne_batch",
    "Verif.ce_ref_ne_batch",
    "Verif.evwma_ref_ne_batch",
    "Verif.abands_ref_ne_batch",
    "Verif.copp_ref_ne_batch",
    "Verif.kst_ref_ne_batch",
    "Verif.t3_ref_ne_batch",
    "Verif.mhlma_ref_ne_batch",
    "Verif.pfe_ref_ne_batch"
   ],
   "note": "All reference implementations; those that are a textual copy of the batch function (arsi, gf1-gf4, mgdyn, pwma, hd) are covered by the batch model itself."
  },
  {
   "property": "C37",
   "status": "partial",
   "theorems": [
    "Verif.vwap_fractions_partial",
    "Verif.rmf_fractions_partial",
    "Verif.vi_fractions_partial",
    "Verif.rmi_stream_fractions_partial",
    "Verif.bf2_fractions_violates",
    "Verif.bf3_fractions_violates",
    "Verif.dwma_fractions_violates",
    "Verif.edcf_fractions_violates",
    "Verif.copp_fractions_violates",
    "Verif.smi_fractions_violates",
    "Verif.rmi_fractions_violates",
    "Verif.hurst_fractions_violates",
    "Verif.frama_fractions_violates",
    "Verif.lma_fractions_violates",
    "Verif.pfe_fractions_violates",
    "Verif.posc_fractions_violates",
    "Verif.pbands_fractions_violates",
    "Verif.rvi_fractions_violates",
    "Verif.dema_fractions",
    "Verif.ema_fractions",
    "Verif.hfsma_fractions",
    "Verif.hma_fractions",
    "Verif.hfema_fractions",
    "Verif.sma_fractions",
    "Verif.tema_fractions",
    "Verif.trima_fractions",
    "Verif.vidya_fractions",
    "Verif.vwma_fractions",
    "Verif.wilders_fractions",
    "Verif.wma_fractions",
    "Verif.zlema_fractions",
    "Verif.rmta_fractions",
    "Verif.gf1_fractions",
    "Verif.gf2_fractions",
    "Verif.gf3_fractions",
    "Verif.gf4_fractions",
    "Verif.ehma_fractions",
    "Verif.evwma_fractions",
    "Verif.swma_fractions",
    "Verif.ahma_fractions",
    "Verif.emsd_fractions",
    "Verif.hwma_fractions",
    "Verif.linreg_fractions",
    "Verif.linregintercept_fractions",
    "Verif.linregslope_fractions",
    "Verif.tsf_fractions",
    "Verif.fosc_fractions",
    "Verif.bbands_fractions",
    "Verif.kama_fractions",
    "Verif.hf_fractions",
    "Verif.adosc_fractions",
    "Verif.abands_fractions",
    "Verif.apo_fractions",
    "Verif.aroon_fractions",
    "Verif.aroonosc_fractions",
    "Verif.cmf_fractions",
    "Verif.mesastoch_fractions",
    "Verif.cmo_fractions",
    "Verif.cci_fractions",
    "Verif.dpo_fractions",
    "Verif.fisher_fractions",
    "Verif.kvo_fractions",
    "Verif.mass_fractions",
    "Verif.mfi_fractions",
    "Verif.macd_fractions",
    "Verif.ppo_fractions",
    "Verif.qstick_fractions",
    "Verif.rsi_fractions",
    "Verif.stoch_fractions",
    "Verif.stochrsi_fractions",
    "Verif.trix_fractions",
    "Verif.willr_fractions",
    "Verif.ultosc_fractions",
    "Verif.vhf_fractions",
    "Verif.vosc_fractions",
    "Verif.er_fractions",
    "Verif.dm_fractions",
    "Verif.dx_fractions",
    "Verif.di_fractions",
    "Verif.adx_fractions",
    "Verif.adxr_fractions",
    "Verif.msw_fractions",
    "Verif.mom_fractions",
    "Verif.roc_fractions",
    "Verif.rocr_fractions",
    "Verif.lag_fractions",
    "Verif.max_fractions",
    "Verif.min_fractions",
    "Verif.sum_fractions",
    "Verif.stddev_fractions",
    "Verif.stderr_fractions",
    "Verif.md_fractions",
    "Verif.var_fractions",
    "Verif.atr_fractions",
    "Verif.ce_fractions",
    "Verif.natr_fractions",
    "Verif.ichi_fractions",
    "Verif.volatility_fractions",
    "Verif.cvi_fractions",
    "Verif.decay_fractions",
    "Verif.edecay_fractions",
    "Verif.pwma_fractions_partial",
    "Verif.shmma_fractions_partial",
    "Verif.mhlma_fractions_partial",
    "Verif.idwma_fractions_partial",
    "Verif.pc_fractions_partial",
    "Verif.lma_fractions_partial",
    "Verif.cmi_fractions_partial",
    "Verif.pbands_fractions_partial",
    "Verif.posc_fractions_partial",
    "Verif.rvi_fractions_partial",
    "Verif.pfe_fractions_partial",
    "Verif.kst_fractions_partial",
    "Verif.cmi_stream_fractional"
   ],
   "note": "_fractions: batch, start and stream ignore the fraction, any arithmetic (83 indicators); _fractions_partial: the same for options whose whole part is at least 1 (smaller ones are refused, but their start index depends on the fraction); _fractions_violates: the claim is false for bf2, bf3, dwma, edcf, copp, smi, rmi, hurst, frama and for the streams of lma, pfe, posc, pbands, rvi and cmi (cmi_stream_fractional). Options the code never converts to an int are outside the claim."
  },
  {
   "property": "C38",
   "status": "partial",
   "theorems": [
    "Verif.ahma_memory_partial",
    "Verif.ahma_memory_violates",
    "Verif.arsi_memory_partial",
    "Verif.arsi_memory_violates",
    "Verif.atr_memory",
    "Verif.bf2_memory",
    "Verif.bf3_memory",
    "Verif.ce_memory",
    "Verif.cmi_memory_violates",
    "Verif.copp_memory",
    "Verif.dwma_memory_partial",
    "Verif.dwma_memory_violates",
    "Verif.edcf_memory_partial",
    "Verif.edcf_memory_violates",
    "Verif.ehma_memory",
    "Verif.emsd_memory_partial",
    "Verif.emsd_memory_violates",
    "Verif.er_memory_partial",
    "Verif.er_memory_violates",
    "Verif.evwma_memory_partial",
    "Verif.evwma_memory_violates",
    "Verif.fi_memory",
    "Verif.frama_memory",
    "Verif.gf1_memory",
    "Verif.gf2_memory",
    "Verif.gf3_memory",
    "Verif.gf4_memory",
    "Verif.hd_memory",
    "Verif.hf_memory_partial",
    "Verif.hf_memory_violates",
    "Verif.hfema_memory_partial",
    "Verif.hfema_memory_violates",
    "Verif.hfsma_memory_partial",
    "Verif.hfsma_memory_violates",
    "Verif.hurst_memory",
    "Verif.hwma_memory",
    "Verif.ichi_memory_partial",
    "Verif.ichi_memory_violates",
    "Verif.idwma_memory_partial",
    "Verif.idwma_memory_violates",
    "Verif.kc_memory",
    "Verif.lf_memory",
    "Verif.lma_memory",
    "Verif.mama_memory",
    "Verif.mesastoch_memory",
    "Verif.mgdyn_memory",
    "Verif.mhlma_memory_partial",
    "Verif.mhlma_memory_violates",
    "Verif.pbands_memory",
    "Verif.pc_memory",
    "Verif.pfe_memory",
    "Verif.posc_memory",
    "Verif.pvt_memory",
    "Verif.pwma_memory_partial",
    "Verif.pwma_memory_violates",
    "Verif.rema_memory",
    "Verif.rmf_memory",
    "Verif.rmi_memory_partial",
    "Verif.rmi_memory_violates",
    "Verif.roof_memory",
    "Verif.rvi_memory",
    "Verif.shmma_memory_partial",
    "Verif.shmma_memory_violates",
    "Verif.sma_memory",
    "Verif.smi_memory",
    "Verif.ssmooth_memory",
    "Verif.swma_memory_partial",
    "Verif.swma_memory_violates",
    "Verif.t3_memory",
    "Verif.tsi_memory",
    "Verif.vi_memory",
    "Verif.vwap_memory",
    "Verif.free_releases",
    "Verif.free_twice"
   ],
   "note": "All 55 streams, every pattern of failing allocations. 37 are clean without reservation; the others lose the stream when an exception escapes or a handler forgets it (evwma, pwma, rmi, swma, dwma), or delete it by a pointer to a base without virtual destructor (hfema, hfsma, ichi on failure; cmi always): the _violates theorems."
  },
  {
   "property": "C39",
   "status": "partial",
   "theorems": [
    "Verif.gf1_contract",
    "Verif.gf2_contract",
    "Verif.gf3_contract",
    "Verif.gf2_stream_eq_batch",
    "Verif.gf3_stream_eq_batch",
    "Verif.gf1_value",
    "Verif.gf1_stream_eq_batch_partial",
    "Verif.gf2_value",
    "Verif.gf1_settles",
    "Verif.gf2_settles",
    "Verif.gf3_settles",
    "Verif.gf3_ignores_period",
    "Verif.gf1_constant",
    "Verif.gf1_bounds",
    "Verif.gf3_bounds",
    "Verif.gf4_contract_partial",
    "Verif.gf4_stream_eq_batch_partial",
    "Verif.gf4_value_partial",
    "Verif.gf4_short_violates",
    "Verif.gf4_constant",
    "Verif.bf2_contract",
    "Verif.bf3_contract",
    "Verif.bf2_stream_eq_batch",
    "Verif.bf3_stream_eq_batch",
    "Verif.bf2_value",
    "Verif.bf3_value",
    "Verif.bf_start_value",
    "Verif.bf_gain",
    "Verif.ssmooth_contract",
    "Verif.roof_contract",
    "Verif.lf_contract",
    "Verif.rema_contract",
    "Verif.ssmooth_stream_eq_batch",
    "Verif.roof_stream_eq_batch",
    "Verif.lf_stream_eq_batch",
    "Verif.rema_stream_eq_batch",
    "Verif.ssmooth_value",
    "Verif.roof_value",
    "Verif.lf_value",
    "Verif.rema_value",
    "Verif.ssmooth_settles",
    "Verif.rema_lambda_zero",
    "Verif.rema_constant"
   ],
   "note": "gf4 with fewer than five bars reads out of bounds (gf4_short_violates); gf3 ignores its period (gf3_ignores_period); the gains of bf2 and bf3 are one only up to the six decimals of the tables (bf_gain)."
  },
  {
   "property": "C40",
   "status": "partial",
   "theorems": [
    "Verif.python_arguments",
    "Verif.python_positional",
    "Verif.python_by_name",
    "Verif.python_arguments_violates",
    "Verif.python_unknown_keyword_violates",
    "Verif.python_names_partial",
    "Verif.python_keyword_violates",
    "Verif.python_series_violates",
    "Verif.python_typename_partial",
    "Verif.python_typename_violates",
    "Verif.python_pads",
    "Verif.python_unpadded",
    "Verif.python_short_violates",
    "Verif.python_refuses",
    "Verif.python_long_column",
    "Verif.python_short_column",
    "Verif.pyColumns_same",
    "Verif.rowsOf_length"
   ],
   "note": "Holds for series of at least start bars; python_short_violates proves that the wrapper raises ValueError on shorter series, and python_short_column that a short later column is read past its end."
  },
  {
   "property": "C41",
   "status": "proved",
   "theorems": [
    "Verif.adosc_value",
    "Verif.kvo_value",
    "Verif.cmf_value",
    "Verif.vosc_value",
    "Verif.cmf_range"
   ],
   "note": ""
  },
  {
   "property": "C42",
   "status": "partial",
   "theorems": [
    "Verif.ao_value",
    "Verif.qstick_value",
    "Verif.dpo_value_partial",
    "Verif.dpo_violates"
   ],
   "note": "complete except dpo with period 1 or 2, where the code reads past the input (dpo_violates)"
  },
  {
   "property": "C43",
   "status": "partial",
   "theorems": [
    "Verif.cci_value_partial",
    "Verif.cvi_value_partial",
    "Verif.mass_value_partial",
    "Verif.ultosc_value_partial",
    "Verif.ultosc_range_partial",
    "Verif.abands_value",
    "Verif.abands_order",
    "Verif.msw_value",
    "Verif.msw_range",
    "Verif.cci_overflow",
    "Verif.cvi_overflow",
    "Verif.mass_overflow",
    "Verif.cvi_violates",
    "Verif.ultosc_violates"
   ],
   "note": "complete except: cvi with period 1 reads an uninitialised cell (cvi_violates); ultosc with medium = long reads out of bounds (ultosc_violates); periods whose start index overflows int"
  },
  {
   "property": "C44",
   "status": "proved",
   "theorems": [
    "Verif.gf_linear",
    "Verif.bf_linear",
    "Verif.ssmooth_linear",
    "Verif.roof_linear",
    "Verif.lf_linear"
   ],
   "note": "Exact arithmetic."
  },
  {
   "property": "C45",
   "status": "partial",
   "theorems": [
    "Verif.tsi_contract",
    "Verif.tsi_refuses",
    "Verif.tsi_chunks",
    "Verif.tsi_stream_eq_batch",
    "Verif.tsi_value",
    "Verif.tsi_stream_value",
    "Verif.tsi_range",
    "Verif.tsi_ref_eq_batch_partial",
    "Verif.rmi_contract_partial",
    "Verif.rmi_value_partial",
    "Verif.rmi_stream_eq_batch_partial",
    "Verif.rmi_range_partial",
    "Verif.rmi_ref_eq_batch_partial",
    "Verif.rmi_refuses",
    "Verif.rmi_chunks",
    "Verif.rmi_stream_overflow",
    "Verif.rmi_stream_value",
    "Verif.rmi_violates"
   ],
   "note": "tsi in full except that its reference divides unguarded and truncates; rmi for integer lookback periods: a fractional one makes the batch call skip its first value (rmi_violates)"
  },
  {
   "property": "C46",
   "status": "partial",
   "theorems": [
    "Verif.vwap_refuses",
    "Verif.vwap_chunks",
    "Verif.vwap_contract",
    "Verif.vwap_value",
    "Verif.vwap_stream_value",
    "Verif.vwap_stream_eq_batch_partial",
    "Verif.vwap_bounds",
    "Verif.vwap_ref_violates",
    "Verif.evwma_contract",
    "Verif.evwma_refuses",
    "Verif.evwma_chunks",
    "Verif.evwma_stream_eq_batch_partial",
    "Verif.evwma_stream_overflow",
    "Verif.evwma_value",
    "Verif.evwma_stream_value",
    "Verif.evwma_bounds",
    "Verif.evwma_ref_ne_batch",
    "Verif.fi_contract",
    "Verif.fi_refuses",
    "Verif.fi_chunks",
    "Verif.fi_ref_violates",
    "Verif.fi_value",
    "Verif.fi_stream_value",
    "Verif.fi_stream_eq_batch",
    "Verif.fi_ref_eq_batch_partial",
    "Verif.pvt_contract",
    "Verif.pvt_chunks",
    "Verif.pvt_stream_eq_batch_partial",
    "Verif.pvt_zero_volume",
    "Verif.pvt_ref_violates",
    "Verif.pvt_ref_eq_batch_partial",
    "Verif.pvt_value_partial",
    "Verif.pvt_stream_violates"
   ],
   "note": "pvt for inputs without zero volumes: with one the batch call falls back to 0 and the stream does not (pvt_stream_violates); streams of vwap and evwma for periods below INT_MAX"
  },
  {
   "property": "C47",
   "status": "partial",
   "theorems": [
    "Verif.kc_contract",
    "Verif.kc_refuses",
    "Verif.kc_stream_refuses",
    "Verif.kc_chunks",
    "Verif.kc_stream_eq_batch",
    "Verif.kc_value",
    "Verif.kc_ordered",
    "Verif.kc_stream_violates",
    "Verif.vi_contract_partial",
    "Verif.vi_stream_eq_batch_partial",
    "Verif.vi_value_partial",
    "Verif.vi_nonneg_partial",
    "Verif.vi_ref_eq_batch_partial",
    "Verif.vi_refuses",
    "Verif.vi_stream_refuses",
    "Verif.vi_short_violates",
    "Verif.vi_chunks",
    "Verif.vi_stream_value",
    "Verif.mgdyn_contract",
    "Verif.mgdyn_chunks",
    "Verif.mgdyn_stream_eq_batch",
    "Verif.mgdyn_value",
    "Verif.mgdyn_constant"
   ],
   "note": "vi answers INVALID_OPTION on inputs of at most period bars (vi_short_violates), its stream does not; kc streams accept periods in [0,1) that the batch call refuses (kc_stream_violates)"
  },
  {
   "property": "C48",
   "status": "partial",
   "theorems": [
    "Verif.hwma_accounts_partial",
    "Verif.hwma_stream_double_violates",
    "Verif.hwma_stream_in_place",
    "Verif.hwma_window",
    "Verif.hwma_mirror",
    "Verif.hwma_recovers",
    "Verif.hwma_fractions",
    "Verif.hwma_counts",
    "Verif.hwma_addsUp",
    "Verif.hwma_rises_violates",
    "Verif.hwma_contract",
    "Verif.hwma_refuses_partial",
    "Verif.hwma_violates",
    "Verif.hwma_ref_eq_batch",
    "Verif.hwma_chunks",
    "Verif.hwma_value",
    "Verif.hwma_stream_value",
    "Verif.hwma_stream_eq_batch_partial",
    "Verif.hwma_constant",
    "Verif.hwma_memory",
    "Verif.hwma_repeats",
    "Verif.hwma_reports",
    "Verif.hwma_units",
    "Verif.hwma_writes",
    "Verif.rmf_accounts",
    "Verif.rmf_fractions_partial",
    "Verif.rmf_stream_in_place",
    "Verif.rmf_mirror",
    "Verif.rmf_counts",
    "Verif.rmf_refuses",
    "Verif.rmf_options",
    "Verif.rmf_contract",
    "Verif.rmf_stream_eq_batch",
    "Verif.rmf_chunks",
    "Verif.rmf_value",
    "Verif.rmf_bounds_partial",
    "Verif.rmf_alpha_real",
    "Verif.rmf_bounds_real",
    "Verif.rmf_memory",
    "Verif.rmf_reports_partial",
    "Verif.rmf_reports_violates",
    "Verif.rmf_units",
    "Verif.rmf_writes",
    "Verif.median_unique"
   ],
   "note": "Proved for periods 7 to 13 and for odd median periods. hwma's batch call indexes its coefficient table before it checks the period, so refused periods are undefined behaviour there (hwma_violates). The stream of hwma agrees in exact arithmetic only."
  },
  {
   "property": "C49",
   "status": "partial",
   "theorems": [
    "Verif.ahma_accounts_partial",
    "Verif.ehma_accounts_partial",
    "Verif.idwma_accounts",
    "Verif.lma_accounts_partial",
    "Verif.shmma_accounts_partial",
    "Verif.ahma_contract",
    "Verif.ahma_refuses",
    "Verif.ahma_ref_refuses",
    "Verif.ahma_chunks",
    "Verif.ahma_stream_eq_batch_partial",
    "Verif.ahma_stream_overflow",
    "Verif.ehma_contract",
    "Verif.ehma_refuses",
    "Verif.ehma_chunks",
    "Verif.ehma_stream_overflow",
    "Verif.idwma_refuses",
    "Verif.idwma_ref_refuses",
    "Verif.idwma_chunks",
    "Verif.lma_refuses",
    "Verif.lma_stream_refuses",
    "Verif.lma_chunks",
    "Verif.shmma_refuses",
    "Verif.shmma_stream_refuses",
    "Verif.shmma_chunks",
    "Verif.idwma_contract",
    "Verif.idwma_stream_eq_batch",
    "Verif.lma_contract",
    "Verif.shmma_contract_partial",
    "Verif.shmma_stream_eq_batch_partial",
    "Verif.shmma_overflow",
    "Verif.ahma_value",
    "Verif.ahma_constant",
    "Verif.ahma_ref_eq_batch_partial",
    "Verif.ehma_value",
    "Verif.ehma_stream_value_partial",
    "Verif.ehma_stream_eq_batch_partial",
    "Verif.ehma_constant",
    "Verif.ehma_ref_eq_batch_partial",
    "Verif.ehma_ref_ne_batch",
    "Verif.idwma_value",
    "Verif.idwma_stream_value",
    "Verif.idwma_bounds",
    "Verif.idwma_ref_eq_batch_partial",
    "Verif.idwma_ref_violates",
    "Verif.lma_value",
    "Verif.lma_stream_value_partial",
    "Verif.lma_stream_eq_batch_partial",
    "Verif.lma_ref_eq_batch_partial",
    "Verif.lma_ref_violates",
    "Verif.shmma_value_partial",
    "Verif.shmma_stream_value_partial",
    "Verif.shmma_ref_eq_batch_partial",
    "Verif.shmma_ref_violates",
    "Verif.shmma_eq_linreg_partial",
    "Verif.ahma_overshoots",
    "Verif.ahma_ref_ne_batch",
    "Verif.lma_stream_ne_batch",
    "Verif.ehma_follows",
    "Verif.ahma_follows",
    "Verif.ehma_stream_double_violates",
    "Verif.lma_stream_double_violates",
    "Verif.ehma_fades",
    "Verif.lma_fractions_violates",
    "Verif.ahma_stream_in_place",
    "Verif.ehma_stream_in_place",
    "Verif.idwma_stream_in_place",
    "Verif.lma_stream_in_place",
    "Verif.shmma_stream_in_place",
    "Verif.lma_lags",
    "Verif.ehma_lags",
    "Verif.shmma_lags_partial",
    "Verif.ahma_lags",
    "Verif.lma_window",
    "Verif.shmma_window_partial",
    "Verif.idwma_window",
    "Verif.lma_mirror",
    "Verif.shmma_mirror_partial",
    "Verif.ehma_mirror",
    "Verif.ahma_mirror",
    "Verif.idwma_mirror",
    "Verif.ehma_missing",
    "Verif.lma_missing",
    "Verif.ehma_fractions",
    "Verif.ahma_fractions",
    "Verif.shmma_fractions_partial",
    "Verif.idwma_fractions_partial",
    "Verif.lma_fractions_partial",
    "Verif.ahma_counts",
    "Verif.ehma_counts",
    "Verif.idwma_counts",
    "Verif.lma_counts",
    "Verif.shmma_counts",
    "Verif.lma_addsUp",
    "Verif.shmma_addsUp_partial",
    "Verif.ehma_addsUp",
    "Verif.lma_rises_violates",
    "Verif.shmma_rises_violates",
    "Verif.ehma_rises_violates",
    "Verif.ahma_rises_violates",
    "Verif.lma_wma_sma_partial",
    "Verif.ahma_memory_partial",
    "Verif.ahma_memory_violates",
    "Verif.ehma_memory",
    "Verif.idwma_memory_partial",
    "Verif.idwma_memory_violates",
    "Verif.lma_memory",
    "Verif.shmma_memory_partial",
    "Verif.shmma_memory_violates",
    "Verif.lma_repeats",
    "Verif.shmma_repeats_partial",
    "Verif.idwma_repeats",
    "Verif.ehma_repeats",
    "Verif.ahma_repeats",
    "Verif.ahma_reports_partial",
    "Verif.ahma_reports_violates",
    "Verif.ehma_reports",
    "Verif.idwma_reports_partial",
    "Verif.idwma_reports_violates",
    "Verif.lma_reports",
    "Verif.shmma_reports_partial",
    "Verif.shmma_reports_violates",
    "Verif.lma_units",
    "Verif.shmma_units_partial",
    "Verif.ehma_units",
    "Verif.ahma_units",
    "Verif.idwma_units",
    "Verif.ahma_writes",
    "Verif.ehma_writes",
    "Verif.idwma_writes",
    "Verif.lma_writes",
    "Verif.shmma_writes",
    "Verif.ahrens_unique",
    "Verif.ahrens_exists",
    "Verif.ahrens_aff",
    "Verif.sharpMean_eq_line"
   ],
   "note": "Partial: shmma overflows from period 46341 on (shmma_overflow); the streams of ahma and ehma overflow for the largest int; the stream of lma equals the batch call for whole-number periods only (lma_stream_ne_batch)."
  },
  {
   "property": "C50",
   "status": "partial",
   "theorems": [
    "Verif.emsd_accounts_partial",
    "Verif.edcf_accounts_partial",
    "Verif.emsd_refuses",
    "Verif.emsd_ref_refuses",
    "Verif.emsd_chunks",
    "Verif.emsd_contract_partial",
    "Verif.edcf_refuses",
    "Verif.edcf_chunks",
    "Verif.emsd_overflow",
    "Verif.emsd_value_partial",
    "Verif.emsd_stream_value",
    "Verif.emsd_stream_eq_batch_partial",
    "Verif.emsd_ignores_ma_period",
    "Verif.emsd_nonneg_partial",
    "Verif.emsd_ref_eq_batch_partial",
    "Verif.edcf_whole",
    "Verif.edcf_contract_partial",
    "Verif.edcf_value_partial",
    "Verif.edcf_stream_value_partial",
    "Verif.edcf_stream_eq_batch_partial",
    "Verif.edcf_value_frac",
    "Verif.edcf_violates",
    "Verif.edcf_bounds_partial",
    "Verif.edcf_constant_partial",
    "Verif.emsd_ref_ne_batch",
    "Verif.emsd_stream_double_violates",
    "Verif.edcf_stream_double_partial",
    "Verif.edcf_fractions_violates",
    "Verif.emsd_stream_in_place",
    "Verif.edcf_stream_in_place",
    "Verif.edcf_window_partial",
    "Verif.emsd_window_partial",
    "Verif.emsd_fractions",
    "Verif.emsd_counts",
    "Verif.edcf_counts",
    "Verif.edcf_rises_violates",
    "Verif.edcf_memory_partial",
    "Verif.edcf_memory_violates",
    "Verif.emsd_memory_partial",
    "Verif.emsd_memory_violates",
    "Verif.edcf_repeats_partial",
    "Verif.emsd_repeats_partial",
    "Verif.edcf_reports_partial",
    "Verif.edcf_reports_violates",
    "Verif.emsd_reports_partial",
    "Verif.emsd_reports_violates",
    "Verif.edcf_units_partial",
    "Verif.emsd_units_partial",
    "Verif.emsd_writes",
    "Verif.edcf_writes"
   ],
   "note": "Partial: emsd overflows for the largest averaging period (emsd_overflow); edcf reads out of bounds for lengths with a fraction below one half (edcf_violates) and is proved for whole lengths and for the other fractions."
  },
  {
   "property": "C51",
   "status": "partial",
   "theorems": [
    "Verif.pbands_accounts_partial",
    "Verif.posc_accounts_partial",
    "Verif.posc_fades_partial",
    "Verif.posc_fractions_violates",
    "Verif.pbands_fractions_violates",
    "Verif.pbands_stream_in_place",
    "Verif.posc_stream_in_place",
    "Verif.pbands_window_partial",
    "Verif.pbands_mirror_partial",
    "Verif.posc_mirror_partial",
    "Verif.pbands_fractions_partial",
    "Verif.posc_fractions_partial",
    "Verif.pbands_counts",
    "Verif.posc_counts",
    "Verif.pbands_refuses",
    "Verif.pbands_stream_refuses",
    "Verif.pbands_chunks",
    "Verif.posc_refuses",
    "Verif.posc_stream_refuses",
    "Verif.posc_chunks",
    "Verif.pbands_overflow",
    "Verif.posc_overflow",
    "Verif.pbands_contract_partial",
    "Verif.posc_contract_partial",
    "Verif.pbands_stream_eq_batch_partial",
    "Verif.posc_stream_eq_batch_partial",
    "Verif.pbands_ref_violates",
    "Verif.posc_ref_violates",
    "Verif.pbands_value_partial",
    "Verif.pbands_stream_value_partial",
    "Verif.pbands_ref_eq_batch_partial",
    "Verif.pbands_encloses_partial",
    "Verif.posc_value_partial",
    "Verif.posc_stream_value_partial",
    "Verif.posc_ref_eq_batch_partial",
    "Verif.posc_range_partial",
    "Verif.posc_ema_overflow",
    "Verif.pbands_ref_fractional_violates",
    "Verif.posc_ref_fractional_violates",
    "Verif.pbands_stream_ne_batch",
    "Verif.posc_stream_ne_batch",
    "Verif.pbands_memory",
    "Verif.posc_memory",
    "Verif.pbands_repeats_partial",
    "Verif.pbands_reports_partial",
    "Verif.pbands_reports_violates",
    "Verif.posc_reports_partial",
    "Verif.posc_reports_violates",
    "Verif.pbands_ref_scratch_partial",
    "Verif.pbands_ref_scratch_violates",
    "Verif.posc_ref_scratch_partial",
    "Verif.posc_ref_scratch_violates",
    "Verif.pbands_units_partial",
    "Verif.posc_units_partial",
    "Verif.pbands_writes",
    "Verif.posc_writes",
    "Verif.projection_encloses"
   ],
   "note": "Partial: from period 1024 on the sums of squares overflow an int (pbands_overflow, posc_overflow); the streams equal the batch calls for whole-number options (pbands_stream_ne_batch, posc_stream_ne_batch); the reference implementations read out of bounds for periods below 1 and for fractional ones."
  },
  {
   "property": "C52",
   "status": "partial",
   "theorems": [
    "Verif.rvi_accounts_partial",
    "Verif.rvi_fractions_violates",
    "Verif.rvi_stream_in_place",
    "Verif.rvi_mirror_violates",
    "Verif.rvi_fractions_partial",
    "Verif.rvi_counts",
    "Verif.rvi_refuses",
    "Verif.rvi_stream_refuses",
    "Verif.rvi_chunks",
    "Verif.rvi_overflow",
    "Verif.rvi_contract_partial",
    "Verif.rvi_stream_eq_batch_partial",
    "Verif.rvi_ema_overflow",
    "Verif.rvi_value_partial",
    "Verif.rvi_range_partial",
    "Verif.rvi_period_one",
    "Verif.rvi_stream_ne_batch",
    "Verif.rvi_memory",
    "Verif.rvi_reports_partial",
    "Verif.rvi_reports_violates",
    "Verif.rvi_units_partial",
    "Verif.rvi_writes"
   ],
   "note": "Partial: from period 1024 on the sums of squares overflow an int (rvi_overflow), and so does the largest EMA period (rvi_ema_overflow); the stream equals the batch call for whole-number periods (rvi_stream_ne_batch)."
  },
  {
   "property": "C53",
   "status": "partial",
   "theorems": [
    "Verif.pfe_accounts_partial",
    "Verif.pfe_rests",
    "Verif.pfe_stream_double_partial",
    "Verif.pfe_fades",
    "Verif.pfe_fractions_violates",
    "Verif.pfe_stream_in_place",
    "Verif.pfe_mirror_partial",
    "Verif.pfe_mirror_violates",
    "Verif.pfe_fractions_partial",
    "Verif.pfe_counts",
    "Verif.pfe_memory",
    "Verif.pfe_reports",
    "Verif.pfe_refuses",
    "Verif.pfe_stream_refuses",
    "Verif.pfe_chunks",
    "Verif.pfe_contract",
    "Verif.pfe_stream_overflow",
    "Verif.pfe_value",
    "Verif.pfe_stream_value_partial",
    "Verif.pfe_stream_eq_batch_partial",
    "Verif.pfe_ref_eq_batch_partial",
    "Verif.pfe_range_partial",
    "Verif.pfe_range_violates",
    "Verif.pfe_ref_violates",
    "Verif.pfe_stream_ne_batch",
    "Verif.pfe_ref_ne_batch",
    "Verif.pfe_units_violates"
   ],
   "note": "The value is proved for all accepted options. Partial: below period 10 the output leaves [-100, 100] (pfe_range_violates: a constant series gives -1000/p); the stream equals the batch call for whole-number EMA periods (pfe_stream_ne_batch) below the largest period (pfe_stream_overflow); the reference reads before its input for fractional periods (pfe_ref_violates)."
  },
  {
   "property": "C54",
   "status": "partial",
   "theorems": [
    "Verif.cmi_accounts_partial",
    "Verif.cmi_stream_in_place",
    "Verif.cmi_mirror_partial",
    "Verif.cmi_fractions_partial",
    "Verif.cmi_counts",
    "Verif.cmi_memory_violates",
    "Verif.cmi_reports_partial",
    "Verif.cmi_reports_violates",
    "Verif.cmi_ref_scratch_partial",
    "Verif.cmi_ref_scratch_violates",
    "Verif.cmi_refuses",
    "Verif.cmi_stream_refuses",
    "Verif.cmi_chunks",
    "Verif.cmi_value_partial",
    "Verif.cmi_contract_partial",
    "Verif.cmi_violates",
    "Verif.cmi_stream_value_partial",
    "Verif.cmi_stream_eq_batch_partial",
    "Verif.cmi_stream_fractional",
    "Verif.cmi_ref_eq_batch_partial",
    "Verif.cmi_ref_violates",
    "Verif.cmi_nonpos_partial",
    "Verif.cmi_stream_ne_batch",
    "Verif.cmi_units_partial",
    "Verif.rangeShare_bounds"
   ],
   "note": "Partial: with period 1 one value fewer is written (cmi_violates); the stream equals the batch call for whole-number periods, and with a fractional one it never forgets an extreme (cmi_stream_fractional, cmi_stream_ne_batch); the reference needs size >= period - 1 (cmi_ref_violates)."
  },
  {
   "property": "C55",
   "status": "partial",
   "theorems": [
    "Verif.mhlma_accounts_partial",
    "Verif.mhlma_stream_double_violates",
    "Verif.mhlma_fades_partial",
    "Verif.mhlma_stream_in_place",
    "Verif.mhlma_mirror_partial",
    "Verif.mhlma_fractions_partial",
    "Verif.mhlma_counts",
    "Verif.mhlma_rises_partial",
    "Verif.mhlma_memory_partial",
    "Verif.mhlma_memory_violates",
    "Verif.mhlma_reports_partial",
    "Verif.mhlma_reports_violates",
    "Verif.mhlma_ref_scratch_partial",
    "Verif.mhlma_ref_scratch_violates",
    "Verif.mhlma_refuses",
    "Verif.mhlma_chunks",
    "Verif.mhlma_overflow",
    "Verif.mhlma_value_partial",
    "Verif.mhlma_contract_partial",
    "Verif.mhlma_violates",
    "Verif.mhlma_bounds_partial",
    "Verif.mhlma_stream_value_partial",
    "Verif.mhlma_stream_eq_batch_partial",
    "Verif.mhlma_ref_eq_batch_partial",
    "Verif.mhlma_ref_ne_batch",
    "Verif.mhlma_ref_violates",
    "Verif.mhlma_units_partial",
    "Verif.mhlma_writes_partial",
    "Verif.mhlma_writes_violates"
   ],
   "note": "Partial: with average period 1 one value fewer is written and the mean has the first value added to it (mhlma_violates); the largest average period overflows (mhlma_overflow); the reference forms pointers before its input (mhlma_ref_violates)."
  },
  {
   "property": "C56",
   "status": "partial",
   "theorems": [
    "Verif.hurst_accounts_partial",
    "Verif.hurst_refuses",
    "Verif.hurst_chunks",
    "Verif.hurst_value_partial",
    "Verif.hurst_contract_partial",
    "Verif.hurst_stream_value_partial",
    "Verif.hurst_stream_eq_batch_partial",
    "Verif.hurst_scale_partial",
    "Verif.hurst_ref_eq_batch_partial",
    "Verif.hurst_violates",
    "Verif.hurst_stream_violates",
    "Verif.hurst_ref_violates",
    "Verif.hurst_range_partial",
    "Verif.hurst_fractions_violates",
    "Verif.hurst_stream_in_place",
    "Verif.hurst_window_partial",
    "Verif.hurst_counts",
    "Verif.hurst_memory",
    "Verif.hurst_repeats_partial",
    "Verif.hurst_reports",
    "Verif.hurst_units_partial",
    "Verif.cumRange_bounds"
   ],
   "note": "Partial: with a fractional period the batch call and the stream fail an assertion (hurst_violates, hurst_stream_violates) and the reference reads before its input (hurst_ref_violates); the reference has no guard against zero prices or a zero range."
  },
  {
   "property": "C57",
   "status": "partial",
   "theorems": [
    "Verif.mesastoch_accounts_partial",
    "Verif.mesastoch_refuses",
    "Verif.mesastoch_chunks",
    "Verif.mesastoch_overflow",
    "Verif.mesastoch_violates",
    "Verif.mesastoch_stream_violates",
    "Verif.mesastoch_value_partial",
    "Verif.mesastoch_contract_partial",
    "Verif.mesastoch_stream_eq_batch_partial",
    "Verif.mesastoch_ref_eq_batch_partial",
    "Verif.mesastoch_ref_violates",
    "Verif.mesastoch_stream_in_place",
    "Verif.mesastoch_fractions",
    "Verif.mesastoch_counts",
    "Verif.mesastoch_memory",
    "Verif.mesastoch_reports",
    "Verif.mesastoch_units_partial",
    "Verif.mesastoch_writes",
    "Verif.filtStoch_bounds",
    "Verif.highPass_unique",
    "Verif.smooths_unique"
   ],
   "note": "Partial: periods 1 and 2 fail an assertion (mesastoch_violates, mesastoch_stream_violates), the two largest overflow (mesastoch_overflow), the reference reads past its input when there are fewer than p + 2 prices (mesastoch_ref_violates)."
  },
  {
   "property": "C58",
   "status": "partial",
   "theorems": [
    "Verif.frama_accounts_partial",
    "Verif.frama_follows_partial",
    "Verif.frama_refuses",
    "Verif.frama_stream_refuses",
    "Verif.frama_chunks",
    "Verif.frama_value_partial",
    "Verif.frama_contract_partial",
    "Verif.frama_half",
    "Verif.frama_stream_value_partial",
    "Verif.frama_stream_eq_batch_partial",
    "Verif.frama_stream_ne_batch",
    "Verif.frama_violates",
    "Verif.frama_bounds_partial",
    "Verif.frama_fractions_violates",
    "Verif.frama_mirror_partial",
    "Verif.frama_counts",
    "Verif.frama_memory",
    "Verif.frama_reports_partial",
    "Verif.frama_reports_violates",
    "Verif.frama_units_partial",
    "Verif.frama_writes",
    "Verif.framaAvg_bounds",
    "Verif.fractalWeight_bounds",
    "Verif.fractalWeight_ge",
    "Verif.fractalDim_le_two"
   ],
   "note": "Partial: with a fractional period the batch call writes past the end of the output (frama_violates); the stream accepts average periods the batch call refuses (frama_stream_ne_batch). There is no reference implementation."
  },
  {
   "property": "C59",
   "status": "partial",
   "theorems": [
    "Verif.hf_accounts_partial",
    "Verif.hf_refuses",
    "Verif.hf_stream_refuses",
    "Verif.hf_chunks",
    "Verif.hf_overflow",
    "Verif.hf_contract_partial",
    "Verif.hf_stream_eq_batch_partial",
    "Verif.hf_ref_eq_batch_partial",
    "Verif.hf_value_partial",
    "Verif.hf_no_outlier_partial",
    "Verif.hf_affine_partial",
    "Verif.hf_stream_in_place",
    "Verif.hf_window_partial",
    "Verif.hf_mirror_partial",
    "Verif.hf_fractions",
    "Verif.hf_counts",
    "Verif.hf_memory_partial",
    "Verif.hf_memory_violates",
    "Verif.hf_repeats_partial",
    "Verif.hf_reports_partial",
    "Verif.hf_reports_violates",
    "Verif.hf_units_partial",
    "Verif.hf_writes",
    "Verif.hampel_unique",
    "Verif.hampel_no_outlier",
    "Verif.hampel_affine",
    "Verif.hampel_m",
    "Verif.hfPick_hampel",
    "Verif.median_affine"
   ],
   "note": "Partial: from k = 2^30 on 2*k overflows (hf_overflow); everything else is proved for every window and threshold."
  },
  {
   "property": "C60",
   "status": "partial",
   "theorems": [
    "Verif.hfema_accounts_partial",
    "Verif.hfema_refuses",
    "Verif.hfema_stream_refuses",
    "Verif.hfema_chunks",
    "Verif.hfema_overflow",
    "Verif.hfema_contract_partial",
    "Verif.hfema_value_run",
    "Verif.hfema_stream_eq_batch_partial",
    "Verif.hfema_ref_eq_batch_partial",
    "Verif.hfema_value_partial",
    "Verif.hfema_stream_in_place",
    "Verif.hfema_mirror_partial",
    "Verif.hfema_fractions",
    "Verif.hfema_counts",
    "Verif.hfema_memory_partial",
    "Verif.hfema_memory_violates",
    "Verif.hfema_reports_partial",
    "Verif.hfema_reports_violates",
    "Verif.hfema_ref_scratch_partial",
    "Verif.hfema_ref_scratch_violates",
    "Verif.hfema_units_partial",
    "Verif.hfema_writes",
    "Verif.hampelIncl_unique",
    "Verif.hampelIncl_no_outlier",
    "Verif.hampelIncl_m",
    "Verif.hampelIncl_affine",
    "Verif.hfxPick_hampel"
   ],
   "note": "Partial: from k = 2^30 on 2*k overflows (hfema_overflow); everything else is proved."
  },
  {
   "property": "C61",
   "status": "partial",
   "theorems": [
    "Verif.hfsma_accounts_partial",
    "Verif.hfsma_refuses",
    "Verif.hfsma_stream_refuses",
    "Verif.hfsma_chunks",
    "Verif.hfsma_overflow",
    "Verif.hfsma_stream_violates",
    "Verif.hfsma_contract_partial",
    "Verif.hfsma_stream_eq_batch_partial",
    "Verif.hfsma_value_run",
    "Verif.hfsma_ref_eq_batch_partial",
    "Verif.hfsma_value_partial",
    "Verif.hfsma_stream_in_place",
    "Verif.hfsma_window_partial",
    "Verif.hfsma_mirror_partial",
    "Verif.hfsma_fractions",
    "Verif.hfsma_counts",
    "Verif.hfsma_memory_partial",
    "Verif.hfsma_memory_violates",
    "Verif.hfsma_repeats_partial",
    "Verif.hfsma_reports_partial",
    "Verif.hfsma_reports_violates",
    "Verif.hfsma_ref_scratch_partial",
    "Verif.hfsma_ref_scratch_violates",
    "Verif.hfsma_units_partial",
    "Verif.hfsma_writes",
    "Verif.hampelIncl_unique",
    "Verif.hampelIncl_no_outlier",
    "Verif.hampelIncl_m",
    "Verif.hampelIncl_affine",
    "Verif.hfxPick_hampel"
   ],
   "note": "Partial: the stream keeps only 2k+1 prices and fails an assertion when the period is longer (hfsma_stream_violates); warm-ups beyond int overflow (hfsma_overflow)."
  },
  {
   "property": "C62",
   "status": "partial",
   "theorems": [
    "Verif.abands_scratch_partial",
    "Verif.abands_scratch_violates",
    "Verif.adxr_scratch_partial",
    "Verif.adxr_scratch_violates",
    "Verif.cci_scratch_partial",
    "Verif.cci_scratch_violates",
    "Verif.cvi_scratch_partial",
    "Verif.cvi_scratch_violates",
    "Verif.hma_scratch_partial",
    "Verif.hma_scratch_violates",
    "Verif.mass_scratch_partial",
    "Verif.mass_scratch_violates",
    "Verif.mfi_scratch_partial",
    "Verif.mfi_scratch_violates",
    "Verif.stoch_scratch_partial",
    "Verif.stoch_scratch_violates",
    "Verif.stochrsi_scratch_partial",
    "Verif.stochrsi_scratch_violates",
    "Verif.ultosc_scratch_partial",
    "Verif.ultosc_scratch_violates",
    "Verif.atr_ref_scratch",
    "Verif.ce_ref_scratch_partial",
    "Verif.ce_ref_scratch_violates",
    "Verif.cmi_ref_scratch_partial",
    "Verif.cmi_ref_scratch_violates",
    "Verif.copp_ref_scratch_partial",
    "Verif.copp_ref_scratch_violates",
    "Verif.hfema_ref_scratch_partial",
    "Verif.hfema_ref_scratch_violates",
    "Verif.hfsma_ref_scratch_partial",
    "Verif.hfsma_ref_scratch_violates",
    "Verif.ichi_ref_scratch_partial",
    "Verif.ichi_ref_scratch_violates",
    "Verif.kst_ref_scratch_partial",
    "Verif.kst_ref_scratch_violates",
    "Verif.mama_ref_scratch_partial",
    "Verif.mama_ref_scratch_violates",
    "Verif.mhlma_ref_scratch_partial",
    "Verif.mhlma_ref_scratch_violates",
    "Verif.pbands_ref_scratch_partial",
    "Verif.pbands_ref_scratch_violates",
    "Verif.posc_ref_scratch_partial",
    "Verif.posc_ref_scratch_violates",
    "Verif.rmi_ref_scratch_partial",
    "Verif.rmi_ref_scratch_violates",
    "Verif.smi_ref_scratch_partial",
    "Verif.smi_ref_scratch_violates",
    "Verif.tsi_ref_scratch_partial",
    "Verif.tsi_ref_scratch_violates",
    "Verif.vwap_ref_scratch_partial",
    "Verif.vwap_ref_scratch_violates"
   ],
   "note": "26 functions; ti_atr_ref without reservation, the others as long as no allocation fails: a failing one is used as a null pointer, or throws past the arrays already allocated (_violates)."
  },
  {
   "property": "C63",
   "status": "partial",
   "theorems": [
    "Verif.willr_range_double",
    "Verif.bop_range_double",
    "Verif.rsi_range_double",
    "Verif.dx_range_double",
    "Verif.cmo_range_double_violates",
    "Verif.er_range_double_violates",
    "Verif.vhf_range_double_violates",
    "Verif.mfi_range_double_violates",
    "Verif.cmf_range_double_violates",
    "Verif.stoch_range_double_violates",
    "Verif.di_range_double_violates",
    "Verif.adx_range_double_violates",
    "Verif.aroon_range_double_violates",
    "Verif.aroonosc_range_double_violates",
    "Verif.ultosc_range_double_violates"
   ],
   "note": "willr, bop, rsi and dx are proved; di, adx, aroon, aroonosc, cmo, er, vhf, mfi, cmf, stoch and ultosc leave their ranges on concrete series (_violates)."
  },
  {
   "property": "C64",
   "status": "partial",
   "theorems": [
    "Verif.ema_bounds_double",
    "Verif.medprice_bounds_double",
    "Verif.ema_const_double",
    "Verif.sma_bounds_double_violates",
    "Verif.wma_bounds_double_violates",
    "Verif.trima_bounds_double_violates",
    "Verif.wilders_bounds_double_violates",
    "Verif.ema_bounds_double_violates",
    "Verif.vwma_bounds_double_violates",
    "Verif.typprice_bounds_double_violates"
   ],
   "note": "ema (period >= 2) and medprice are proved; sma, wma, trima, wilders, vwma, ema(1) and typprice overshoot on concrete series (_violates)."
  },
  {
   "property": "C65",
   "status": "partial",
   "theorems": [
    "Verif.dm_nonneg_double",
    "Verif.tr_nonneg_double",
    "Verif.atr_nonneg_double",
    "Verif.natr_nonneg_double",
    "Verif.var_nonneg_double_violates",
    "Verif.stddev_nonneg_double_violates"
   ],
   "note": "tr, atr, natr and dm are proved; var and stddev write negative values on concrete series (_violates)."
  },
  {
   "property": "C66",
   "status": "partial",
   "theorems": [
    "Verif.ahma_stream_eq_batch_partial",
    "Verif.bf2_stream_eq_batch",
    "Verif.bf3_stream_eq_batch",
    "Verif.dwma_stream_eq_batch_partial",
    "Verif.er_stream_eq_batch_partial",
    "Verif.evwma_stream_eq_batch_partial",
    "Verif.gf2_stream_eq_batch",
    "Verif.gf3_stream_eq_batch",
    "Verif.gf4_stream_eq_batch_partial",
    "Verif.hd_stream_eq_batch",
    "Verif.idwma_stream_eq_batch",
    "Verif.kc_stream_eq_batch",
    "Verif.lf_stream_eq_batch",
    "Verif.mama_stream_eq_batch",
    "Verif.mgdyn_stream_eq_batch",
    "Verif.pbands_stream_eq_batch_partial",
    "Verif.posc_stream_eq_batch_partial",
    "Verif.pvt_stream_eq_batch_partial",
    "Verif.rema_stream_eq_batch",
    "Verif.roof_stream_eq_batch",
    "Verif.rvi_stream_eq_batch_partial",
    "Verif.shmma_stream_eq_batch_partial",
    "Verif.ssmooth_stream_eq_batch",
    "Verif.swma_stream_eq_batch",
    "Verif.t3_stream_eq_batch",
    "Verif.tsi_stream_eq_batch",
    "Verif.vi_stream_eq_batch_partial",
    "Verif.copp_stream_double_partial",
    "Verif.edcf_stream_double_partial",
    "Verif.pfe_stream_double_partial",
    "Verif.rmi_stream_double_partial",
    "Verif.fi_stream_double_partial",
    "Verif.pc_stream_double_violates",
    "Verif.ichi_stream_double_violates",
    "Verif.mhlma_stream_double_violates",
    "Verif.smi_stream_double_violates",
    "Verif.emsd_stream_double_violates",
    "Verif.sma_stream_double_violates",
    "Verif.atr_stream_double_violates",
    "Verif.ehma_stream_double_violates",
    "Verif.hwma_stream_double_violates",
    "Verif.lma_stream_double_violates",
    "Verif.vwap_stream_double_violates",
    "Verif.fi_stream_double_violates",
    "Verif.rmi_stream_double_violates",
    "Verif.gf1_stream_double"
   ],
   "note": "The listed stream_eq_batch theorems assume no law of arithmetic, or only that small integers are exact, which doubles satisfy (Proof/BinaryExact), so they hold for doubles bit for bit under the conditions each states (Props/DoublesAny reads them at doubles); copp, edcf, pfe, rmi (positive prices) and fi (first force not zero) are proved for doubles directly; gf1_stream_double: gf1, for all doubles. sma, atr, ehma, emsd, hwma, lma, vwap, fi and rmi differ on concrete series and pc, ichi, mhlma and smi when a price is NaN (_violates). Open: ce, arsi, hurst, mesastoch, frama, hf, hfsma, hfema, rmf, pwma, cmi, and pc, ichi, mhlma, smi on finite prices."
  },
  {
   "property": "C67",
   "status": "proved",
   "theorems": [
    "Verif.max_value_double",
    "Verif.min_value_double",
    "Verif.sum_exact_double"
   ],
   "note": ""
  },
  {
   "property": "C68",
   "status": "proved",
   "theorems": [
    "Verif.csharp_stream",
    "Verif.csharp_stream_refuses"
   ],
   "note": ""
  },
  {
   "property": "C69",
   "status": "partial",
   "theorems": [
    "Verif.csharp_default",
    "Verif.csharp_default_partial",
    "Verif.csharp_default_whole",
    "Verif.csharp_default_violates",
    "Verif.csharp_ema_violates",
    "Verif.csharp_medprice_violates",
    "Verif.winMean_looksBack"
   ],
   "note": "Proved for classes with one input (csharp_default_partial, csharp_default_whole). With several inputs the library gets the last input in place of every input (csharp_default, csharp_default_violates); the ema class has a window of one bar and shows the price (csharp_ema_violates)."
  },
  {
   "property": "C70",
   "status": "partial",
   "theorems": [
    "Verif.python_arguments",
    "Verif.python_arguments_violates",
    "Verif.python_positional",
    "Verif.python_by_name",
    "Verif.python_names_partial",
    "Verif.python_keyword_violates",
    "Verif.python_unknown_keyword_violates",
    "Verif.python_series_violates",
    "Verif.python_typename_partial",
    "Verif.python_typename_violates"
   ],
   "note": "Superfluous arguments are dropped silently (python_arguments_violates, python_unknown_keyword_violates); the option lambda of rema is a Python keyword; add, sub, mul, div and others have two inputs of the same name; an option printed with an exponent sign gives a type name that is no identifier."
  },
  {
   "property": "C71",
   "status": "partial",
   "theorems": [
    "Verif.compare_zero",
    "Verif.equal_arrays_iff",
    "Verif.smoke_passes_partial",
    "Verif.smoke_violates",
    "Verif.equal_reals_iff",
    "Verif.equal_reals_partial",
    "Verif.equal_reals_violates",
    "Verif.smoke_stream_new"
   ],
   "note": "The verdict depends on the outputs of the batch function only (smoke_passes_partial, smoke_violates), and the comparison accepts a value of the wrong sign (equal_reals_violates)."
  },
  {
   "property": "C72",
   "status": "partial",
   "theorems": [
    "Verif.ahma_stream_in_place",
    "Verif.ehma_stream_in_place",
    "Verif.idwma_stream_in_place",
    "Verif.lma_stream_in_place",
    "Verif.shmma_stream_in_place",
    "Verif.emsd_stream_in_place",
    "Verif.edcf_stream_in_place",
    "Verif.pc_stream_in_place",
    "Verif.ichi_stream_in_place",
    "Verif.smi_stream_in_place",
    "Verif.hd_stream_in_place",
    "Verif.arsi_stream_in_place",
    "Verif.mama_stream_in_place",
    "Verif.gf1_stream_in_place",
    "Verif.gf2_stream_in_place",
    "Verif.gf3_stream_in_place",
    "Verif.gf4_stream_in_place",
    "Verif.ssmooth_stream_in_place",
    "Verif.roof_stream_in_place",
    "Verif.lf_stream_in_place",
    "Verif.rema_stream_in_place",
    "Verif.fi_stream_in_place",
    "Verif.mgdyn_stream_in_place",
    "Verif.pvt_stream_in_place",
    "Verif.rmi_stream_in_place",
    "Verif.vwap_stream_in_place",
    "Verif.evwma_stream_in_place",
    "Verif.vi_stream_in_place",
    "Verif.hurst_stream_in_place",
    "Verif.mesastoch_stream_in_place",
    "Verif.hf_stream_in_place",
    "Verif.hfema_stream_in_place",
    "Verif.hfsma_stream_in_place",
    "Verif.hwma_stream_in_place",
    "Verif.rmf_stream_in_place",
    "Verif.rvi_stream_in_place",
    "Verif.pbands_stream_in_place",
    "Verif.posc_stream_in_place",
    "Verif.er_stream_in_place",
    "Verif.dwma_stream_in_place",
    "Verif.pwma_stream_in_place",
    "Verif.swma_stream_in_place",
    "Verif.t3_stream_in_place",
    "Verif.copp_stream_in_place",
    "Verif.sma_stream_in_place",
    "Verif.pfe_stream_in_place",
    "Verif.cmi_stream_in_place",
    "Verif.mhlma_stream_in_place",
    "Verif.simple1_in_place",
    "Verif.simple2_in_place",
    "Verif.ema_in_place",
    "Verif.mom_in_place",
    "Verif.max_in_place",
    "Verif.stream_in_place_violates",
    "Verif.bf2_rereads",
    "Verif.bf3_rereads",
    "Verif.tsi_rereads",
    "Verif.atr_rereads",
    "Verif.kc_rereads",
    "Verif.ce_rereads",
    "Verif.wilders_in_place",
    "Verif.dema_in_place",
    "Verif.tema_in_place",
    "Verif.trix_in_place",
    "Verif.apo_in_place",
    "Verif.ppo_in_place",
    "Verif.macd_in_place",
    "Verif.rmta_in_place",
    "Verif.min_in_place",
    "Verif.roc_in_place",
    "Verif.rocr_in_place",
    "Verif.lag_in_place",
    "Verif.decay_in_place",
    "Verif.edecay_in_place",
    "Verif.rsi_in_place",
    "Verif.stochrsi_in_place",
    "Verif.msw_in_place",
    "Verif.sma_apart",
    "Verif.wilders_apart",
    "Verif.dema_apart",
    "Verif.tema_apart",
    "Verif.trix_apart",
    "Verif.apo_apart",
    "Verif.ppo_apart",
    "Verif.macd_apart",
    "Verif.rmta_apart",
    "Verif.min_apart",
    "Verif.roc_apart",
    "Verif.rocr_apart",
    "Verif.lag_apart",
    "Verif.decay_apart",
    "Verif.edecay_apart",
    "Verif.rsi_apart",
    "Verif.stochrsi_apart",
    "Verif.msw_apart",
    "Verif.sum_apart",
    "Verif.zlema_apart",
    "Verif.vhf_apart",
    "Verif.var_apart",
    "Verif.stddev_apart",
    "Verif.md_apart",
    "Verif.wma_apart",
    "Verif.cmo_apart",
    "Verif.kama_apart",
    "Verif.vidya_apart",
    "Verif.trima_apart",
    "Verif.dpo_apart",
    "Verif.batch_in_place_violates",
    "Verif.avgprice_in_place",
    "Verif.medprice_in_place",
    "Verif.typprice_in_place",
    "Verif.wcprice_in_place",
    "Verif.bop_in_place",
    "Verif.marketfi_in_place",
    "Verif.emv_in_place",
    "Verif.crossany_in_place",
    "Verif.crossover_in_place",
    "Verif.ad_in_place",
    "Verif.obv_in_place",
    "Verif.wad_in_place",
    "Verif.adosc_in_place",
    "Verif.tr_in_place_partial",
    "Verif.atr_in_place_partial",
    "Verif.natr_in_place_partial",
    "Verif.bars_in_place_violates",
    "Verif.avgprice_apart",
    "Verif.medprice_apart",
    "Verif.typprice_apart",
    "Verif.wcprice_apart",
    "Verif.bop_apart",
    "Verif.marketfi_apart",
    "Verif.emv_apart",
    "Verif.crossany_apart",
    "Verif.crossover_apart",
    "Verif.tr_apart",
    "Verif.atr_apart",
    "Verif.natr_apart",
    "Verif.ad_apart",
    "Verif.obv_apart",
    "Verif.wad_apart",
    "Verif.adosc_apart",
    "Verif.nvi_apart",
    "Verif.pvi_apart",
    "Verif.willr_in_place",
    "Verif.aroon_in_place",
    "Verif.aroonosc_in_place",
    "Verif.fisher_in_place",
    "Verif.mfi_in_place",
    "Verif.cci_in_place",
    "Verif.ultosc_in_place",
    "Verif.fosc_in_place",
    "Verif.dm_in_place_partial",
    "Verif.windows_in_place_violates",
    "Verif.willr_apart",
    "Verif.aroon_apart",
    "Verif.aroonosc_apart",
    "Verif.fisher_apart",
    "Verif.mfi_apart",
    "Verif.cci_apart",
    "Verif.ultosc_apart",
    "Verif.dm_apart",
    "Verif.vwma_apart",
    "Verif.qstick_apart",
    "Verif.vosc_apart",
    "Verif.linreg_apart",
    "Verif.linregintercept_apart",
    "Verif.tsf_apart",
    "Verif.linregslope_apart",
    "Verif.fosc_apart"
   ],
   "note": "48 streams and 47 kinds of batch functions are proved, four of them with a condition on the period or on the overwritten input; 25 batch functions and six of the seven streams that read a bar again have a counterexample. The _apart theorems check that the in-place models are the batch functions when the outputs go elsewhere. Missing: the remaining batch functions and frama."
  },
  {
   "property": "C73",
   "status": "partial",
   "theorems": [
    "Verif.stream_counter",
    "Verif.stream_counter_partial",
    "Verif.stream_counter_violates"
   ],
   "note": "The property is false beyond INT_MAX + start bars; the exact limit is proved."
  },
  {
   "property": "C74",
   "status": "partial",
   "theorems": [
    "Verif.gf1_gain",
    "Verif.gf3_gain",
    "Verif.gf2_gain",
    "Verif.bf2_gain",
    "Verif.bf3_gain",
    "Verif.lf_gain_partial",
    "Verif.gf4_gain_partial",
    "Verif.rmta_gain_partial",
    "Verif.lf_gain_violates",
    "Verif.gf4_gain_violates",
    "Verif.rmta_gain_violates",
    "Verif.gf1_stream_gain",
    "Verif.gf2_stream_gain",
    "Verif.gf3_stream_gain",
    "Verif.bf2_stream_gain",
    "Verif.bf3_stream_gain",
    "Verif.lf_stream_gain_partial"
   ],
   "note": "Exact arithmetic. The property is false for gf4 with periods above 30, lf with gamma above 1 and rmta with beta above 1: there divergence is proved for every such setting."
  },
  {
   "property": "C75",
   "status": "partial",
   "theorems": [
    "Verif.gf1_cutoff",
    "Verif.gf2_cutoff",
    "Verif.ssmooth_cutoff",
    "Verif.ssmooth_stops_alternation",
    "Verif.gf4_cutoff_partial",
    "Verif.bf2_cutoff_partial",
    "Verif.bf3_cutoff_partial",
    "Verif.gf3_cutoff_violates",
    "Verif.gf4_cutoff_violates",
    "Verif.bf2_cutoff_violates",
    "Verif.bf3_cutoff_violates",
    "Verif.power_unique",
    "Verif.bf3_mutes",
    "Verif.bf2_mutes",
    "Verif.ssmooth_mutes"
   ],
   "note": "Real arithmetic. The property is false for gf3, for gf4 above period 6 and for bf2 and bf3 at short periods; the _violates theorems give an upper bound for the power, which by power_unique excludes every larger value."
  },
  {
   "property": "C76",
   "status": "partial",
   "theorems": [
    "Verif.ema_follows",
    "Verif.wilders_follows",
    "Verif.t3_follows",
    "Verif.ehma_follows",
    "Verif.kama_follows",
    "Verif.gf1_follows",
    "Verif.gf2_follows",
    "Verif.gf3_follows",
    "Verif.bf2_follows",
    "Verif.bf3_follows",
    "Verif.ahma_follows",
    "Verif.ssmooth_follows",
    "Verif.rema_follows",
    "Verif.dema_follows_partial",
    "Verif.tema_follows_partial",
    "Verif.zlema_follows_partial",
    "Verif.lf_follows_partial",
    "Verif.rmta_follows_partial",
    "Verif.gf4_follows_partial",
    "Verif.frama_follows_partial",
    "Verif.mama_follows_partial",
    "Verif.mgdyn_follows_partial",
    "Verif.lf_follows_violates",
    "Verif.mgdyn_follows_violates",
    "Verif.apo_rests",
    "Verif.macd_rests",
    "Verif.fi_rests",
    "Verif.atr_rests",
    "Verif.kc_rests",
    "Verif.adosc_rests",
    "Verif.roof_rests",
    "Verif.ppo_rests_partial",
    "Verif.trix_rests_partial",
    "Verif.natr_rests_partial",
    "Verif.cvi_rests_partial",
    "Verif.ppo_rests_violates",
    "Verif.rsi_freezes",
    "Verif.rmi_freezes_partial",
    "Verif.dm_rests",
    "Verif.kvo_rests",
    "Verif.pfe_rests",
    "Verif.di_rests_partial",
    "Verif.adx_rests_partial",
    "Verif.mass_rests_partial",
    "Verif.smi_rests_partial",
    "Verif.stochrsi_rests_partial",
    "Verif.dx_freezes",
    "Verif.vidya_freezes_partial",
    "Verif.vidya_follows_violates",
    "Verif.evwma_follows_partial",
    "Verif.evwma_follows_violates"
   ],
   "note": "Exact arithmetic; ssmooth, roof, rema and mgdyn over the reals. False for mgdyn, lf with damping 1, ppo at price 0 and, by C74, gf4 above period 30 and rmta with beta above 1. False also for vidya, pfe and evwma with a small gamma. tsi and the cycle measures are not covered."
  },
  {
   "property": "C77",
   "status": "partial",
   "theorems": [
    "Verif.sma_units",
    "Verif.ema_units",
    "Verif.wilders_units",
    "Verif.max_units",
    "Verif.min_units",
    "Verif.lag_units",
    "Verif.avgprice_units",
    "Verif.medprice_units",
    "Verif.typprice_units",
    "Verif.wcprice_units",
    "Verif.dema_units_partial",
    "Verif.tema_units_partial",
    "Verif.zlema_units_partial",
    "Verif.wma_units_partial",
    "Verif.trima_units_partial",
    "Verif.hma_units_partial",
    "Verif.dwma_units_partial",
    "Verif.lma_units",
    "Verif.shmma_units_partial",
    "Verif.t3_units",
    "Verif.ehma_units",
    "Verif.kama_units",
    "Verif.hwma_units",
    "Verif.gf1_units",
    "Verif.gf2_units",
    "Verif.gf3_units",
    "Verif.bf2_units",
    "Verif.bf3_units",
    "Verif.ssmooth_units",
    "Verif.roof_units",
    "Verif.lf_units",
    "Verif.sum_units",
    "Verif.edcf_units_partial",
    "Verif.mom_units",
    "Verif.apo_units",
    "Verif.macd_units",
    "Verif.md_units",
    "Verif.stddev_units",
    "Verif.stderr_units",
    "Verif.dpo_units_partial",
    "Verif.rsi_units",
    "Verif.cmo_units",
    "Verif.vhf_units",
    "Verif.er_units",
    "Verif.tsi_units",
    "Verif.rmi_units_partial",
    "Verif.roc_units",
    "Verif.rocr_units",
    "Verif.ppo_units",
    "Verif.trix_units_partial",
    "Verif.volatility_units",
    "Verif.copp_units_partial",
    "Verif.vosc_units",
    "Verif.bbands_units",
    "Verif.pc_units_partial",
    "Verif.ichi_units_partial",
    "Verif.mhlma_units_partial",
    "Verif.psar_units",
    "Verif.kc_units",
    "Verif.ce_units_partial",
    "Verif.abands_units",
    "Verif.tr_units",
    "Verif.atr_units",
    "Verif.ao_units",
    "Verif.qstick_units",
    "Verif.dm_units",
    "Verif.wad_units",
    "Verif.fi_units",
    "Verif.stoch_units_partial",
    "Verif.willr_units",
    "Verif.aroon_units",
    "Verif.aroonosc_units",
    "Verif.fisher_units",
    "Verif.stochrsi_units_partial",
    "Verif.cci_units_partial",
    "Verif.cvi_units_partial",
    "Verif.mass_units_partial",
    "Verif.ultosc_units_partial",
    "Verif.bop_units",
    "Verif.crossover_units",
    "Verif.crossany_units",
    "Verif.smi_units_partial",
    "Verif.dx_units",
    "Verif.adx_units_partial",
    "Verif.adxr_units_partial",
    "Verif.di_units",
    "Verif.vi_units_partial",
    "Verif.cmi_units_partial",
    "Verif.kvo_units",
    "Verif.obv_units",
    "Verif.ad_units",
    "Verif.adosc_units",
    "Verif.cmf_units",
    "Verif.natr_units",
    "Verif.mfi_units",
    "Verif.nvi_units",
    "Verif.pvi_units",
    "Verif.pvt_units_partial",
    "Verif.vwma_units",
    "Verif.vwap_units",
    "Verif.evwma_units",
    "Verif.obv_volume",
    "Verif.ad_volume",
    "Verif.adosc_volume",
    "Verif.kvo_volume",
    "Verif.fi_volume",
    "Verif.pvt_volume_partial",
    "Verif.mfi_volume",
    "Verif.cmf_volume",
    "Verif.nvi_volume",
    "Verif.pvi_volume",
    "Verif.vwma_volume",
    "Verif.vwap_volume",
    "Verif.evwma_volume",
    "Verif.emv_units",
    "Verif.marketfi_units",
    "Verif.linreg_units_partial",
    "Verif.linregintercept_units_partial",
    "Verif.tsf_units_partial",
    "Verif.linregslope_units_partial",
    "Verif.fosc_units_partial",
    "Verif.rvi_units_partial",
    "Verif.pbands_units_partial",
    "Verif.posc_units_partial",
    "Verif.hf_units_partial",
    "Verif.hfema_units_partial",
    "Verif.hfsma_units_partial",
    "Verif.rmf_units",
    "Verif.ahma_units",
    "Verif.rema_units",
    "Verif.gf4_units_partial",
    "Verif.vidya_units_partial",
    "Verif.mgdyn_units",
    "Verif.edecay_units",
    "Verif.decay_units_partial",
    "Verif.kst_units_partial",
    "Verif.hurst_units_partial",
    "Verif.hd_units",
    "Verif.mama_units",
    "Verif.mesastoch_units_partial",
    "Verif.var_units",
    "Verif.emsd_units_partial",
    "Verif.arsi_units_partial",
    "Verif.rmta_units",
    "Verif.vwma_level_partial",
    "Verif.vwma_level_violates",
    "Verif.vwap_level_partial",
    "Verif.vwap_level_violates",
    "Verif.evwma_level_partial",
    "Verif.evwma_level_violates",
    "Verif.mama_level_violates",
    "Verif.decay_units_violates",
    "Verif.pfe_units_violates",
    "Verif.frama_units_partial",
    "Verif.idwma_units",
    "Verif.pwma_units",
    "Verif.swma_units",
    "Verif.msw_units_violates"
   ],
   "note": "All indicators but the element-wise functions, in exact arithmetic (frama, msw and the means with power or sine weights over the reals). _partial marks options or inputs left out, _violates the indicators for which the property is false."
  },
  {
   "property": "C78",
   "status": "partial",
   "theorems": [
    "Verif.sma_window",
    "Verif.max_window",
    "Verif.min_window",
    "Verif.lag_window",
    "Verif.avgprice_window",
    "Verif.medprice_window",
    "Verif.typprice_window",
    "Verif.wcprice_window",
    "Verif.sum_window",
    "Verif.mom_window",
    "Verif.md_window",
    "Verif.var_window",
    "Verif.stddev_window",
    "Verif.cmo_window",
    "Verif.vhf_window",
    "Verif.er_window",
    "Verif.roc_window",
    "Verif.rocr_window",
    "Verif.volatility_window",
    "Verif.vosc_window",
    "Verif.abands_window",
    "Verif.ao_window",
    "Verif.qstick_window",
    "Verif.willr_window",
    "Verif.bop_window",
    "Verif.crossover_window",
    "Verif.crossany_window",
    "Verif.mfi_window",
    "Verif.cmf_window",
    "Verif.vwma_window",
    "Verif.emv_window",
    "Verif.marketfi_window",
    "Verif.lma_window",
    "Verif.wma_window_partial",
    "Verif.trima_window_partial",
    "Verif.hma_window_partial",
    "Verif.dwma_window_partial",
    "Verif.shmma_window_partial",
    "Verif.pc_window_partial",
    "Verif.cci_window_partial",
    "Verif.stoch_window_partial",
    "Verif.stderr_window",
    "Verif.bbands_window",
    "Verif.vwap_window",
    "Verif.pwma_window",
    "Verif.idwma_window",
    "Verif.swma_window",
    "Verif.copp_window_partial",
    "Verif.ichi_window_partial",
    "Verif.ultosc_window_partial",
    "Verif.edcf_window_partial",
    "Verif.hwma_window",
    "Verif.msw_window",
    "Verif.hurst_window_partial",
    "Verif.dpo_window_partial",
    "Verif.emsd_window_partial",
    "Verif.linreg_window_partial",
    "Verif.linregintercept_window_partial",
    "Verif.linregslope_window_partial",
    "Verif.tsf_window_partial",
    "Verif.fosc_window_partial",
    "Verif.pbands_window_partial",
    "Verif.hf_window_partial",
    "Verif.hfsma_window_partial",
    "Verif.aroon_window",
    "Verif.aroonosc_window",
    "Verif.vi_window_partial",
    "Verif.ema_fades",
    "Verif.dema_fades_partial",
    "Verif.tema_fades_partial",
    "Verif.zlema_fades_partial",
    "Verif.wilders_fades",
    "Verif.t3_fades",
    "Verif.ehma_fades",
    "Verif.kama_fades",
    "Verif.edecay_fades",
    "Verif.apo_fades",
    "Verif.macd_fades",
    "Verif.adosc_fades",
    "Verif.fi_fades",
    "Verif.tr_fades",
    "Verif.atr_fades",
    "Verif.kc_fades",
    "Verif.ce_fades_partial",
    "Verif.dm_fades",
    "Verif.gf1_fades",
    "Verif.gf3_fades",
    "Verif.lf_fades_partial",
    "Verif.rsi_fades_violates",
    "Verif.obv_fades_violates",
    "Verif.ad_fades_violates",
    "Verif.wad_fades_violates",
    "Verif.nvi_fades_violates",
    "Verif.pvi_fades_violates",
    "Verif.tsi_fades_violates",
    "Verif.decay_fades_violates",
    "Verif.abs_window",
    "Verif.acos_window",
    "Verif.asin_window",
    "Verif.atan_window",
    "Verif.ceil_window",
    "Verif.cos_window",
    "Verif.cosh_window",
    "Verif.exp_window",
    "Verif.floor_window",
    "Verif.ln_window",
    "Verif.log10_window",
    "Verif.round_window",
    "Verif.sin_window",
    "Verif.sinh_window",
    "Verif.sqrt_window",
    "Verif.tan_window",
    "Verif.tanh_window",
    "Verif.todeg_window",
    "Verif.torad_window",
    "Verif.add_window",
    "Verif.sub_window",
    "Verif.mul_window",
    "Verif.div_window",
    "Verif.gf2_fades",
    "Verif.bf2_fades",
    "Verif.bf3_fades",
    "Verif.rmta_fades_partial",
    "Verif.pfe_fades",
    "Verif.mhlma_fades_partial",
    "Verif.posc_fades_partial",
    "Verif.rmi_fades_violates",
    "Verif.ema_window_violates",
    "Verif.ssmooth_fades",
    "Verif.rema_fades",
    "Verif.vidya_fades_violates",
    "Verif.dx_fades_violates"
   ],
   "note": "In exact arithmetic; ssmooth and rema over the reals. _partial marks options or inputs left out, _violates the indicators that never forget. Not treated: the adaptive indicators whose rate depends on the bars (frama, mama, mgdyn, evwma), the ratios of fading averages, psar, roof and gf4."
  },
  {
   "property": "C79",
   "status": "partial",
   "theorems": [
    "Verif.sma_mirror",
    "Verif.ema_mirror",
    "Verif.wilders_mirror",
    "Verif.max_mirror",
    "Verif.min_mirror",
    "Verif.lag_mirror",
    "Verif.avgprice_mirror",
    "Verif.medprice_mirror",
    "Verif.typprice_mirror",
    "Verif.wcprice_mirror",
    "Verif.dema_mirror_partial",
    "Verif.tema_mirror_partial",
    "Verif.zlema_mirror_partial",
    "Verif.wma_mirror_partial",
    "Verif.trima_mirror_partial",
    "Verif.hma_mirror_partial",
    "Verif.dwma_mirror_partial",
    "Verif.lma_mirror",
    "Verif.shmma_mirror_partial",
    "Verif.t3_mirror",
    "Verif.ehma_mirror",
    "Verif.kama_mirror",
    "Verif.hwma_mirror",
    "Verif.bbands_mirror",
    "Verif.pc_mirror_partial",
    "Verif.ichi_mirror_partial",
    "Verif.mhlma_mirror_partial",
    "Verif.kc_mirror",
    "Verif.ce_mirror_partial",
    "Verif.psar_mirror_partial",
    "Verif.ahma_mirror",
    "Verif.rema_mirror",
    "Verif.gf4_mirror_partial",
    "Verif.vidya_mirror_partial",
    "Verif.linreg_mirror_partial",
    "Verif.linregintercept_mirror_partial",
    "Verif.tsf_mirror_partial",
    "Verif.linregslope_mirror_partial",
    "Verif.gf1_mirror",
    "Verif.gf2_mirror",
    "Verif.gf3_mirror",
    "Verif.bf2_mirror",
    "Verif.bf3_mirror",
    "Verif.ssmooth_mirror",
    "Verif.roof_mirror",
    "Verif.lf_mirror",
    "Verif.sum_mirror",
    "Verif.rmta_mirror",
    "Verif.vwma_mirror",
    "Verif.mom_mirror",
    "Verif.apo_mirror",
    "Verif.macd_mirror",
    "Verif.dpo_mirror_partial",
    "Verif.cmo_mirror",
    "Verif.tsi_mirror",
    "Verif.ao_mirror",
    "Verif.qstick_mirror",
    "Verif.wad_mirror",
    "Verif.fi_mirror",
    "Verif.cci_mirror_partial",
    "Verif.bop_mirror",
    "Verif.smi_mirror_partial",
    "Verif.obv_mirror",
    "Verif.ad_mirror",
    "Verif.adosc_mirror",
    "Verif.cmf_mirror",
    "Verif.emv_mirror",
    "Verif.kvo_mirror_partial",
    "Verif.md_mirror",
    "Verif.var_mirror",
    "Verif.stddev_mirror",
    "Verif.stderr_mirror",
    "Verif.vhf_mirror",
    "Verif.er_mirror",
    "Verif.tr_mirror",
    "Verif.atr_mirror",
    "Verif.dm_mirror",
    "Verif.cvi_mirror_partial",
    "Verif.mass_mirror_partial",
    "Verif.marketfi_mirror",
    "Verif.dx_mirror",
    "Verif.adx_mirror_partial",
    "Verif.adxr_mirror_partial",
    "Verif.di_mirror",
    "Verif.vi_mirror_partial",
    "Verif.cmi_mirror_partial",
    "Verif.aroon_mirror",
    "Verif.aroonosc_mirror",
    "Verif.crossover_mirror",
    "Verif.crossany_mirror",
    "Verif.stoch_mirror_partial",
    "Verif.willr_mirror_partial",
    "Verif.ultosc_mirror_partial",
    "Verif.rsi_mirror_partial",
    "Verif.fisher_mirror_partial",
    "Verif.hf_mirror_partial",
    "Verif.hfema_mirror_partial",
    "Verif.hfsma_mirror_partial",
    "Verif.rmf_mirror",
    "Verif.pbands_mirror_partial",
    "Verif.posc_mirror_partial",
    "Verif.frama_mirror_partial",
    "Verif.mgdyn_mirror",
    "Verif.hd_mirror",
    "Verif.mama_mirror",
    "Verif.rmi_mirror_partial",
    "Verif.pfe_mirror_partial",
    "Verif.idwma_mirror",
    "Verif.pwma_mirror",
    "Verif.swma_mirror",
    "Verif.vwap_mirror",
    "Verif.evwma_mirror",
    "Verif.rsi_mirror_violates",
    "Verif.stoch_mirror_violates",
    "Verif.willr_mirror_violates",
    "Verif.rmi_mirror_violates",
    "Verif.psar_mirror_violates",
    "Verif.kvo_mirror_violates",
    "Verif.pfe_mirror_violates",
    "Verif.fisher_mirror_violates",
    "Verif.rvi_mirror_violates",
    "Verif.natr_mirror_violates",
    "Verif.abands_mirror_violates",
    "Verif.mfi_mirror_violates",
    "Verif.roc_mirror_violates",
    "Verif.decay_mirror_violates",
    "Verif.edecay_mirror_violates"
   ],
   "note": "Proved for about 105 indicators, the symmetry each of them has (Spec/Mirror.lean). Partial: where ties, flat windows or the level of the price break the symmetry (_violates), the _partial theorem names the inputs for which it holds (bars with a range, prices that move); some _partial theorems leave out periods that overflow, as their value theorems do. Real-valued for indicators that use log, powers or sines."
  },
  {
   "property": "C80",
   "status": "proved",
   "theorems": [
    "Verif.mom_accurate",
    "Verif.medprice_accurate",
    "Verif.typprice_accurate",
    "Verif.avgprice_accurate",
    "Verif.wcprice_accurate",
    "Verif.tr_accurate",
    "Verif.ema_accurate",
    "Verif.wilders_accurate",
    "Verif.atr_accurate",
    "Verif.apo_accurate",
    "Verif.macd_accurate",
    "Verif.dema_accurate_partial",
    "Verif.tema_accurate_partial",
    "Verif.dpo_accurate_partial",
    "Verif.sum_accurate",
    "Verif.sma_accurate",
    "Verif.var_accurate",
    "Verif.sma_accurate_window_violates",
    "Verif.var_accurate_violates"
   ],
   "note": "Explicit error bounds against the exact (rational) value, for the binary64 model. The _violates theorems show what the bounds cannot be: relative to the prices in the window (sma) or to the variance itself (var). Other functions have no error bound yet."
  },
  {
   "property": "C81",
   "status": "proved",
   "theorems": [
    "Verif.sum_rises",
    "Verif.sma_rises",
    "Verif.ema_rises",
    "Verif.wilders_rises",
    "Verif.max_rises",
    "Verif.min_rises",
    "Verif.lag_rises",
    "Verif.wma_rises_partial",
    "Verif.trima_rises_partial",
    "Verif.dwma_rises_partial",
    "Verif.medprice_rises",
    "Verif.typprice_rises",
    "Verif.avgprice_rises",
    "Verif.wcprice_rises",
    "Verif.pc_rises_partial",
    "Verif.ichi_rises_partial",
    "Verif.mhlma_rises_partial",
    "Verif.decay_rises",
    "Verif.edecay_rises",
    "Verif.vwma_rises",
    "Verif.vwap_rises",
    "Verif.evwma_rises",
    "Verif.gf1_rises",
    "Verif.gf3_rises",
    "Verif.dema_rises_violates",
    "Verif.tema_rises_violates",
    "Verif.zlema_rises_violates",
    "Verif.hma_rises_violates",
    "Verif.linreg_rises_violates",
    "Verif.tsf_rises_violates",
    "Verif.linregintercept_rises_violates",
    "Verif.lma_rises_violates",
    "Verif.hwma_rises_violates",
    "Verif.t3_rises_violates",
    "Verif.shmma_rises_violates",
    "Verif.ehma_rises_violates",
    "Verif.bf2_rises_violates",
    "Verif.rema_rises_violates",
    "Verif.ahma_rises_violates",
    "Verif.kama_rises_violates",
    "Verif.edcf_rises_violates"
   ],
   "note": "Exact arithmetic. Every function named in the statement has a theorem; the _violates theorems are two concrete series whose order the output reverses. _partial: the weight total or start index is assumed not to overflow."
  },
  {
   "property": "C82",
   "status": "proved",
   "theorems": [
    "Verif.sum_addsUp",
    "Verif.sma_addsUp",
    "Verif.ema_addsUp",
    "Verif.wilders_addsUp",
    "Verif.lag_addsUp",
    "Verif.mom_addsUp",
    "Verif.wma_addsUp_partial",
    "Verif.trima_addsUp_partial",
    "Verif.dwma_addsUp_partial",
    "Verif.pwma_addsUp",
    "Verif.swma_addsUp",
    "Verif.lma_addsUp",
    "Verif.shmma_addsUp_partial",
    "Verif.t3_addsUp",
    "Verif.ehma_addsUp",
    "Verif.hwma_addsUp",
    "Verif.hma_addsUp_partial",
    "Verif.dema_addsUp_partial",
    "Verif.tema_addsUp_partial",
    "Verif.zlema_addsUp_partial",
    "Verif.apo_addsUp",
    "Verif.macd_addsUp",
    "Verif.medprice_addsUp",
    "Verif.typprice_addsUp",
    "Verif.avgprice_addsUp",
    "Verif.wcprice_addsUp",
    "Verif.qstick_addsUp",
    "Verif.dpo_addsUp_partial",
    "Verif.ao_addsUp",
    "Verif.linreg_addsUp_partial",
    "Verif.linregintercept_addsUp_partial",
    "Verif.linregslope_addsUp_partial",
    "Verif.tsf_addsUp_partial",
    "Verif.max_addsUp_violates",
    "Verif.roc_addsUp_violates",
    "Verif.kama_addsUp_violates"
   ],
   "note": "Exact arithmetic. _partial: the overflows and out-of-bounds periods are excluded. The recursive filters are covered by C44 (superposition)."
  },
  {
   "property": "C83",
   "status": "proved",
   "theorems": [
    "Verif.sum_sma",
    "Verif.stddev_var",
    "Verif.stderr_stddev",
    "Verif.bbands_sma_stddev",
    "Verif.mom_lag",
    "Verif.roc_mom_lag",
    "Verif.rocr_roc",
    "Verif.lag_lag",
    "Verif.apo_ema",
    "Verif.ppo_apo_ema",
    "Verif.macd_apo_partial",
    "Verif.dema_ema_partial",
    "Verif.tema_ema_partial",
    "Verif.trix_ema_partial",
    "Verif.t3_ema",
    "Verif.dwma_wma_partial",
    "Verif.lma_wma_sma_partial",
    "Verif.hma_wma_partial",
    "Verif.vwma_sum",
    "Verif.vosc_sma",
    "Verif.qstick_sma",
    "Verif.ao_sma",
    "Verif.dpo_sma_partial",
    "Verif.pc_max_min_partial",
    "Verif.atr_tr_wilders",
    "Verif.natr_atr",
    "Verif.dx_dm",
    "Verif.adx_dx_wilders_partial",
    "Verif.adxr_adx_partial",
    "Verif.adosc_ad_ema",
    "Verif.linreg_slope_intercept_partial",
    "Verif.tsf_linreg_slope_partial",
    "Verif.fosc_tsf_partial",
    "Verif.crossany_crossover",
    "Verif.stoch_willr",
    "Verif.trima_sma_partial",
    "Verif.sma_sma",
    "Verif.max_max",
    "Verif.min_min",
    "Verif.ce_pc_atr_partial",
    "Verif.kc_ema_tr",
    "Verif.ichi_pc_partial",
    "Verif.abands_sma",
    "Verif.rsi_wilders",
    "Verif.cmo_sum",
    "Verif.stochrsi_rsi_partial",
    "Verif.er_mom_sum",
    "Verif.vhf_max_min_sum",
    "Verif.volatility_roc_stddev",
    "Verif.cci_typprice_sma_md_partial",
    "Verif.cvi_ema_roc_partial",
    "Verif.mass_ema_sum_partial",
    "Verif.copp_roc_wma_partial",
    "Verif.macd_apo_violates"
   ],
   "note": "Exact arithmetic; the statements mention only calls (Gives batch options input output). _partial: the overflows and out-of-bounds periods are excluded, and for macd_apo_partial the periods 12 and 26, for which macd_apo_violates shows the difference."
  },
  {
   "property": "C84",
   "status": "partial",
   "theorems": [
    "Verif.Codegen.codegen_keeps",
    "Verif.Codegen.codegen_other",
    "Verif.Codegen.codegen_complete",
    "Verif.Codegen.codegen_twice",
    "Verif.Codegen.codegen_finishes_partial",
    "Verif.Codegen.codegen_fresh_partial",
    "Verif.Codegen.codegen_first_violates",
    "Verif.Codegen.codegen_stale_violates",
    "Verif.Codegen.codegen_old_violates",
    "Verif.Codegen.codegen_ref_violates",
    "Verif.Codegen.codegen_headers"
   ],
   "note": "The part of codegen.py that creates and completes source files (lines 213-422). codegen_finishes_partial and codegen_fresh_partial exclude the first entry being new and a new entry after one with a stream; the _violates theorems show what happens then, with --old on .cc sources and for the reference stub."
  },
  {
   "property": "C85",
   "status": "proved",
   "theorems": [
    "Verif.fuzz_covers",
    "Verif.fuzz_clean",
    "Verif.fuzz_stream_clean",
    "Verif.fuzz_violates",
    "Verif.fuzz_series"
   ],
   "note": "std::pow of 4 is taken to be exact. fuzz_violates is part of the claim: a defect the fuzzer cannot find, for IEEE doubles."
  },
  {
   "property": "C86",
   "status": "proved",
   "theorems": [
    "Verif.streams_safe",
    "Verif.streams_apart"
   ],
   "note": "Spec/World states the answers in terms of Indicator.session of each stream alone. That streams share no memory is part of the model (no writable static data in /repo/indicators and /repo/utils, one block tree per stream)."
  },
  {
   "property": "C87",
   "status": "partial",
   "theorems": [
    "Verif.sum_missing",
    "Verif.sma_missing",
    "Verif.ema_missing",
    "Verif.wilders_missing",
    "Verif.dema_missing",
    "Verif.tema_missing",
    "Verif.trix_missing",
    "Verif.wma_missing",
    "Verif.rmta_missing",
    "Verif.var_missing",
    "Verif.stddev_missing",
    "Verif.stderr_missing",
    "Verif.bbands_missing",
    "Verif.md_missing",
    "Verif.volatility_missing",
    "Verif.dpo_missing",
    "Verif.zlema_missing",
    "Verif.linreg_missing",
    "Verif.linregintercept_missing",
    "Verif.tsf_missing",
    "Verif.linregslope_missing",
    "Verif.fosc_missing",
    "Verif.apo_missing",
    "Verif.ppo_missing",
    "Verif.macd_missing",
    "Verif.vosc_missing",
    "Verif.hma_missing",
    "Verif.t3_missing",
    "Verif.ehma_missing",
    "Verif.mgdyn_missing",
    "Verif.gf1_missing",
    "Verif.gf2_missing",
    "Verif.gf3_missing",
    "Verif.ssmooth_missing",
    "Verif.roof_missing",
    "Verif.lf_missing",
    "Verif.rema_missing",
    "Verif.atr_missing",
    "Verif.natr_missing",
    "Verif.ad_missing",
    "Verif.adosc_missing",
    "Verif.vwma_missing",
    "Verif.qstick_missing",
    "Verif.fi_missing",
    "Verif.kc_missing",
    "Verif.dm_missing",
    "Verif.lma_missing",
    "Verif.dwma_missing",
    "Verif.abs_recovers",
    "Verif.acos_recovers",
    "Verif.asin_recovers",
    "Verif.atan_recovers",
    "Verif.ceil_recovers",
    "Verif.cos_recovers",
    "Verif.cosh_recovers",
    "Verif.exp_recovers",
    "Verif.floor_recovers",
    "Verif.ln_recovers",
    "Verif.log10_recovers",
    "Verif.round_recovers",
    "Verif.sin_recovers",
    "Verif.sinh_recovers",
    "Verif.sqrt_recovers",
    "Verif.tan_recovers",
    "Verif.tanh_recovers",
    "Verif.todeg_recovers",
    "Verif.torad_recovers",
    "Verif.add_recovers",
    "Verif.sub_recovers",
    "Verif.mul_recovers",
    "Verif.div_recovers",
    "Verif.avgprice_recovers",
    "Verif.medprice_recovers",
    "Verif.typprice_recovers",
    "Verif.wcprice_recovers",
    "Verif.bop_recovers",
    "Verif.marketfi_recovers",
    "Verif.crossany_recovers",
    "Verif.crossover_recovers",
    "Verif.emv_recovers",
    "Verif.lag_recovers",
    "Verif.mom_recovers",
    "Verif.roc_recovers",
    "Verif.rocr_recovers",
    "Verif.tr_recovers",
    "Verif.hwma_recovers",
    "Verif.swma_recovers_partial",
    "Verif.msw_recovers",
    "Verif.max_recovers_partial",
    "Verif.min_recovers_partial",
    "Verif.rsi_missing_violates",
    "Verif.cmo_missing_violates",
    "Verif.max_missing_violates",
    "Verif.min_missing_violates",
    "Verif.decay_missing_violates",
    "Verif.edecay_missing_violates",
    "Verif.obv_missing_violates",
    "Verif.tr_missing_violates",
    "Verif.atr_missing_violates",
    "Verif.Hides.not_poisons"
   ],
   "note": "_recovers: the functions for which the property holds. _missing: every later output is NaN, so the property is false for these; _missing_violates: the missing price does not show. Not treated: the functions of several series other than those named, the adaptive averages, the cycle measures and the streams (equal to the batch calls by C66 where proved)."
  },
  {
   "property": "C88",
   "status": "partial",
   "theorems": [
    "Verif.atr_reports",
    "Verif.bf2_reports",
    "Verif.bf3_reports",
    "Verif.ehma_reports",
    "Verif.evwma_reports",
    "Verif.fi_reports",
    "Verif.gf1_reports",
    "Verif.gf2_reports",
    "Verif.gf3_reports",
    "Verif.gf4_reports",
    "Verif.hd_reports",
    "Verif.hurst_reports",
    "Verif.hwma_reports",
    "Verif.lf_reports",
    "Verif.lma_reports",
    "Verif.mama_reports",
    "Verif.mesastoch_reports",
    "Verif.mgdyn_reports",
    "Verif.pc_reports",
    "Verif.pfe_reports",
    "Verif.pvt_reports",
    "Verif.pwma_reports",
    "Verif.rema_reports",
    "Verif.rmi_reports",
    "Verif.roof_reports",
    "Verif.sma_reports",
    "Verif.ssmooth_reports",
    "Verif.swma_reports",
    "Verif.t3_reports",
    "Verif.tsi_reports",
    "Verif.vwap_reports",
    "Verif.ahma_reports_partial",
    "Verif.arsi_reports_partial",
    "Verif.ce_reports_partial",
    "Verif.cmi_reports_partial",
    "Verif.copp_reports_partial",
    "Verif.dwma_reports_partial",
    "Verif.edcf_reports_partial",
    "Verif.emsd_reports_partial",
    "Verif.er_reports_partial",
    "Verif.frama_reports_partial",
    "Verif.hf_reports_partial",
    "Verif.hfema_reports_partial",
    "Verif.hfsma_reports_partial",
    "Verif.ichi_reports_partial",
    "Verif.idwma_reports_partial",
    "Verif.kc_reports_partial",
    "Verif.mhlma_reports_partial",
    "Verif.pbands_reports_partial",
    "Verif.posc_reports_partial",
    "Verif.rmf_reports_partial",
    "Verif.rvi_reports_partial",
    "Verif.shmma_reports_partial",
    "Verif.smi_reports_partial",
    "Verif.vi_reports_partial",
    "Verif.ahma_reports_violates",
    "Verif.arsi_reports_violates",
    "Verif.ce_reports_violates",
    "Verif.cmi_reports_violates",
    "Verif.copp_reports_violates",
    "Verif.dwma_reports_violates",
    "Verif.edcf_reports_violates",
    "Verif.emsd_reports_violates",
    "Verif.er_reports_violates",
    "Verif.frama_reports_violates",
    "Verif.hf_reports_violates",
    "Verif.hfema_reports_violates",
    "Verif.hfsma_reports_violates",
    "Verif.ichi_reports_violates",
    "Verif.idwma_reports_violates",
    "Verif.kc_reports_violates",
    "Verif.mhlma_reports_violates",
    "Verif.pbands_reports_violates",
    "Verif.posc_reports_violates",
    "Verif.rmf_reports_violates",
    "Verif.rvi_reports_violates",
    "Verif.shmma_reports_violates",
    "Verif.smi_reports_violates",
    "Verif.vi_reports_violates"
   ],
   "note": "Proved in full for 31 streams; false for 24 (`_violates`), for which the part that holds is proved as `_partial`. Memory asked for during ti_X_stream_run is not part of it."
  },
  {
   "property": "C89",
   "status": "partial",
   "theorems": [
    "Verif.sma_lags",
    "Verif.lma_lags",
    "Verif.lag_lags",
    "Verif.ema_lags",
    "Verif.wilders_lags",
    "Verif.t3_lags",
    "Verif.kama_lags",
    "Verif.ehma_lags",
    "Verif.wma_lags_partial",
    "Verif.trima_lags_partial",
    "Verif.dwma_lags_partial",
    "Verif.hma_lags_partial",
    "Verif.linreg_lags_partial",
    "Verif.linregintercept_lags_partial",
    "Verif.tsf_lags_partial",
    "Verif.dema_lags_partial",
    "Verif.tema_lags_partial",
    "Verif.zlema_lags_partial",
    "Verif.lag_unique",
    "Verif.apo_trend",
    "Verif.mom_trend",
    "Verif.ahma_lags",
    "Verif.gf1_lags",
    "Verif.gf2_lags",
    "Verif.gf3_lags",
    "Verif.rema_lags",
    "Verif.ssmooth_lags",
    "Verif.shmma_lags_partial",
    "Verif.lf_lags_partial",
    "Verif.vwma_trend",
    "Verif.macd_trend",
    "Verif.roof_trend",
    "Verif.dpo_trend_partial",
    "Verif.rmta_lags_partial"
   ],
   "note": "Theorems with the suffix _partial need the period to stay within the range in which the value theorem of the function holds (int products that do not overflow; zlema needs a period of at least 3, hma at least 2). lag_unique shows that no function has two lags. lf needs a damping below one, rmta a beta between -1 and 1. Missing: the other averages (mhlma, gf4, bf2, bf3, vidya, mgdyn, mama, frama)."
  },
  {
   "property": "C90",
   "status": "partial",
   "theorems": [
    "Verif.sma_repeats",
    "Verif.max_repeats",
    "Verif.min_repeats",
    "Verif.lag_repeats",
    "Verif.avgprice_repeats",
    "Verif.medprice_repeats",
    "Verif.typprice_repeats",
    "Verif.wcprice_repeats",
    "Verif.sum_repeats",
    "Verif.mom_repeats",
    "Verif.md_repeats",
    "Verif.var_repeats",
    "Verif.stddev_repeats",
    "Verif.cmo_repeats",
    "Verif.vhf_repeats",
    "Verif.er_repeats",
    "Verif.roc_repeats",
    "Verif.rocr_repeats",
    "Verif.volatility_repeats",
    "Verif.vosc_repeats",
    "Verif.abands_repeats",
    "Verif.ao_repeats",
    "Verif.qstick_repeats",
    "Verif.willr_repeats",
    "Verif.bop_repeats",
    "Verif.crossover_repeats",
    "Verif.crossany_repeats",
    "Verif.mfi_repeats",
    "Verif.cmf_repeats",
    "Verif.vwma_repeats",
    "Verif.emv_repeats",
    "Verif.marketfi_repeats",
    "Verif.lma_repeats",
    "Verif.stderr_repeats",
    "Verif.bbands_repeats",
    "Verif.vwap_repeats",
    "Verif.pwma_repeats",
    "Verif.idwma_repeats",
    "Verif.swma_repeats",
    "Verif.hwma_repeats",
    "Verif.msw_repeats",
    "Verif.ema_repeats",
    "Verif.wilders_repeats",
    "Verif.t3_repeats",
    "Verif.apo_repeats",
    "Verif.macd_repeats",
    "Verif.ehma_repeats",
    "Verif.gf3_repeats",
    "Verif.kama_repeats",
    "Verif.ahma_repeats",
    "Verif.adosc_repeats",
    "Verif.aroon_repeats",
    "Verif.aroonosc_repeats",
    "Verif.gf1_repeats",
    "Verif.gf2_repeats",
    "Verif.rema_repeats",
    "Verif.ssmooth_repeats",
    "Verif.roof_repeats",
    "Verif.wma_repeats_partial",
    "Verif.trima_repeats_partial",
    "Verif.hma_repeats_partial",
    "Verif.dwma_repeats_partial",
    "Verif.shmma_repeats_partial",
    "Verif.pc_repeats_partial",
    "Verif.cci_repeats_partial",
    "Verif.stoch_repeats_partial",
    "Verif.copp_repeats_partial",
    "Verif.ichi_repeats_partial",
    "Verif.ultosc_repeats_partial",
    "Verif.edcf_repeats_partial",
    "Verif.hurst_repeats_partial",
    "Verif.dpo_repeats_partial",
    "Verif.emsd_repeats_partial",
    "Verif.linreg_repeats_partial",
    "Verif.linregintercept_repeats_partial",
    "Verif.linregslope_repeats_partial",
    "Verif.tsf_repeats_partial",
    "Verif.fosc_repeats_partial",
    "Verif.pbands_repeats_partial",
    "Verif.dema_repeats_partial",
    "Verif.tema_repeats_partial",
    "Verif.zlema_repeats_partial",
    "Verif.lf_repeats_partial",
    "Verif.hf_repeats_partial",
    "Verif.hfsma_repeats_partial",
    "Verif.rmta_repeats_partial",
    "Verif.sma_levels",
    "Verif.sum_levels",
    "Verif.mom_levels",
    "Verif.obv_drifts",
    "Verif.wad_drifts",
    "Verif.ad_drifts",
    "Verif.nvi_compounds",
    "Verif.pvi_compounds"
   ],
   "note": "66 functions with a window, 20 recursive functions, 3 running totals, 2 compounded ones. Theorems with the suffix _partial carry the condition of the value theorem of the function (int products that do not overflow, a shortest period, a damping below one). Missing: vi (window shown in C78 only), pvt, the other recursive functions."
  }
 ]
}