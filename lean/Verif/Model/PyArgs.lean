/-
How the Python binding assigns arguments and names results, `/repo/bindings/python/tindicators/impl.py`, and the names it uses
(`/repo/indicators.yaml`).
-/
import Verif.Core.Num

namespace Verif

/-- `_Indicator.__parse`, impl.py:144-149. `kw` is the dictionary of keyword arguments; `none` is a `KeyError`. -/
def pyParse {α : Type} (args : List α) (kw : String → Option α) (offset : Nat) (names : List String) : Option (List α) := do
  let result := (args.drop offset).take names.length
  let rest ← (names.drop result.length).mapM kw
  return result ++ rest

/-- The two calls of `__parse` in `__call__`, impl.py:98-99: the inputs and the options. -/
def pyArgs {α : Type} (inputs options : List String) (args : List α) (kw : String → Option α) : Option (List α × List α) := do
  let ins ← pyParse args kw 0 inputs
  let opts ← pyParse args kw inputs.length options
  return (ins, opts)

/-- `replace(' ', '_').replace('%', '')`, impl.py:73-75. -/
def pyName (s : List Char) : List Char := (s.map fun c => if c = ' ' then '_' else c).filter fun c => c != '%'

/-- `str(opt).replace('.', 'p').replace('-', 'm')`, impl.py:142. -/
def pyOption (s : List Char) : List Char := s.map fun c => if c = '.' then 'p' else if c = '-' then 'm' else c

/-- `__construct_elaborated_name`, impl.py:141-142: `options` are the texts `str` gives. -/
def pyTypename (name : List Char) (options : List (List Char)) : List Char :=
  name ++ ['_'].intercalate ([] :: options.map pyOption)

/-- The entries of `/repo/indicators.yaml`: name, inputs, options, outputs. -/
def argNames : List (String × List String × List String × List String) := [
    ("dema", ["series"], ["period"], ["dema"]),
    ("ema", ["series"], ["period"], ["ema"]),
    ("hfsma", ["series"], ["sma_period", "k", "threshold"], ["hfsma"]),
    ("hma", ["series"], ["period"], ["hma"]),
    ("hfema", ["series"], ["ema_period", "k", "threshold"], ["hfema"]),
    ("sma", ["series"], ["period"], ["sma"]),
    ("lf", ["series"], ["gamma"], ["lf"]),
    ("rmf", ["series"], ["critical_period", "median_period"], ["rmf"]),
    ("mama", ["series"], ["fastlimit", "slowlimit"], ["mama", "fama"]),
    ("rema", ["series"], ["period", "lambda"], ["rema"]),
    ("tema", ["series"], ["period"], ["tema"]),
    ("trima", ["series"], ["period"], ["trima"]),
    ("vidya", ["series"], ["short period", "long period", "alpha"], ["vidya"]),
    ("vwma", ["close", "volume"], ["period"], ["vwma"]),
    ("vwap", ["high", "low", "close", "volume"], ["period"], ["vwap"]),
    ("wilders", ["series"], ["period"], ["wilders"]),
    ("wma", ["series"], ["period"], ["wma"]),
    ("zlema", ["series"], ["period"], ["zlema"]),
    ("rmta", ["series"], ["period", "beta"], ["rmta"]),
    ("gf1", ["series"], ["period"], ["gf1"]),
    ("gf2", ["series"], ["period"], ["gf2"]),
    ("gf3", ["series"], ["period"], ["gf3"]),
    ("gf4", ["series"], ["period"], ["gf4"]),
    ("ehma", ["series"], ["period"], ["ehma"]),
    ("evwma", ["close", "volume"], ["period", "gamma"], ["evwma"]),
    ("lma", ["close"], ["period"], ["lma"]),
    ("pwma", ["series"], ["period", "power"], ["pwma"]),
    ("swma", ["series"], ["period"], ["swma"]),
    ("dwma", ["series"], ["period"], ["dwma"]),
    ("shmma", ["series"], ["period"], ["shmma"]),
    ("ahma", ["series"], ["period"], ["ahma"]),
    ("t3", ["series"], ["period", "v"], ["t3"]),
    ("mhlma", ["series"], ["period", "ma_period"], ["mhlsma", "mhlema"]),
    ("cmi", ["high", "low", "close"], ["period"], ["cmi"]),
    ("idwma", ["series"], ["period", "exponent"], ["idwma"]),
    ("emsd", ["series"], ["period", "ma_period"], ["emsd"]),
    ("hwma", ["series"], ["period"], ["hwma"]),
    ("hd", ["series"], [], ["hd"]),
    ("mgdyn", ["series"], ["N"], ["mgdyn"]),
    ("linreg", ["series"], ["period"], ["linreg"]),
    ("linregintercept", ["series"], ["period"], ["linregintercept"]),
    ("linregslope", ["series"], ["period"], ["linregslope"]),
    ("tsf", ["series"], ["period"], ["tsf"]),
    ("fosc", ["series"], ["period"], ["fosc"]),
    ("bbands", ["series"], ["period", "stddev"], ["bbands_lower", "bbands_middle", "bbands_upper"]),
    ("bf2", ["series"], ["period"], ["bf2"]),
    ("bf3", ["series"], ["period"], ["bf3"]),
    ("kc", ["high", "low", "close"], ["period", "multiple"], ["kc_lower", "kc_middle", "kc_upper"]),
    ("kama", ["series"], ["period"], ["kama"]),
    ("psar", ["high", "low"], ["acceleration factor step", "acceleration factor maximum"], ["psar"]),
    ("pc", ["high", "low"], ["period"], ["pc_low", "pc_high"]),
    ("pbands", ["high", "low", "close"], ["period"], ["pbands_lower", "pbands_upper"]),
    ("edcf", ["series"], ["length"], ["edcf"]),
    ("frama", ["high", "low"], ["period", "average_period"], ["frama"]),
    ("roof", ["series"], [], ["roof"]),
    ("ssmooth", ["series"], [], ["ssmooth"]),
    ("hf", ["series"], ["period", "threshold"], ["hf"]),
    ("ad", ["high", "low", "close", "volume"], [], ["ad"]),
    ("adosc", ["high", "low", "close", "volume"], ["short period", "long period"], ["adosc"]),
    ("abands", ["high", "low", "close"], ["period"], ["abands_lower", "abands_upper", "abands_middle"]),
    ("apo", ["series"], ["short period", "long period"], ["apo"]),
    ("aroon", ["high", "low"], ["period"], ["aroon_down", "aroon_up"]),
    ("aroonosc", ["high", "low"], ["period"], ["aroonosc"]),
    ("ao", ["high", "low"], [], ["ao"]),
    ("bop", ["open", "high", "low", "close"], [], ["bop"]),
    ("cmf", ["high", "low", "close", "volume"], ["period"], ["cmf"]),
    ("mesastoch", ["series"], ["period", "max_cycle_considered"], ["mesastoch"]),
    ("cmo", ["series"], ["period"], ["cmo"]),
    ("cci", ["high", "low", "close"], ["period"], ["cci"]),
    ("copp", ["series"], ["roc_shorter_period", "roc_longer_period", "wma_period"], ["copp"]),
    ("dpo", ["series"], ["period"], ["dpo"]),
    ("emv", ["high", "low", "volume"], [], ["emv"]),
    ("fisher", ["high", "low"], ["period"], ["fisher", "fisher_signal"]),
    ("fi", ["close", "volume"], ["period"], ["fi"]),
    ("kvo", ["high", "low", "close", "volume"], ["short period", "long period"], ["kvo"]),
    ("kst", ["series"], ["roc1", "roc2", "roc3", "roc4", "ma1", "ma2", "ma3", "ma4"], ["kst", "kst_signal"]),
    ("marketfi", ["high", "low", "volume"], [], ["marketfi"]),
    ("mass", ["high", "low"], ["period"], ["mass"]),
    ("mfi", ["high", "low", "close", "volume"], ["period"], ["mfi"]),
    ("macd", ["series"], ["short period", "long period", "signal period"], ["macd", "macd_signal", "macd_histogram"]),
    ("nvi", ["close", "volume"], [], ["nvi"]),
    ("obv", ["close", "volume"], [], ["obv"]),
    ("ppo", ["series"], ["short period", "long period"], ["ppo"]),
    ("pfe", ["series"], ["period", "ema_period"], ["pfe"]),
    ("pvi", ["close", "volume"], [], ["pvi"]),
    ("posc", ["high", "low", "close"], ["period", "ema_period"], ["posc"]),
    ("qstick", ["open", "close"], ["period"], ["qstick"]),
    ("rsi", ["series"], ["period"], ["rsi"]),
    ("tsi", ["series"], ["y_period", "z_period"], ["tsi"]),
    ("rmi", ["series"], ["period", "lookback_period"], ["rmi"]),
    ("rvi", ["series"], ["ema_period", "stddev_period"], ["rvi"]),
    ("smi", ["high", "low", "close"], ["q_period", "r_period", "s_period"], ["smi"]),
    ("stoch", ["high", "low", "close"], ["k period", "k slowing period", "d period"], ["stoch_k", "stoch_d"]),
    ("stochrsi", ["series"], ["period"], ["stochrsi"]),
    ("trix", ["series"], ["period"], ["trix"]),
    ("wad", ["high", "low", "close"], [], ["wad"]),
    ("willr", ["high", "low", "close"], ["period"], ["willr"]),
    ("ultosc", ["high", "low", "close"], ["short period", "medium period", "long period"], ["ultosc"]),
    ("vhf", ["series"], ["period"], ["vhf"]),
    ("vosc", ["volume"], ["short period", "long period"], ["vosc"]),
    ("er", ["series"], ["period"], ["er"]),
    ("pvt", ["close", "volume"], [], ["pvt"]),
    ("hurst", ["series"], ["period"], ["hurst", "fractal_dim"]),
    ("arsi", ["series"], ["cycpart"], ["arsi"]),
    ("dm", ["high", "low"], ["period"], ["plus_dm", "minus_dm"]),
    ("dx", ["high", "low"], ["period"], ["dx"]),
    ("di", ["high", "low", "close"], ["period"], ["plus_di", "minus_di"]),
    ("adx", ["high", "low"], ["period"], ["adx"]),
    ("adxr", ["high", "low"], ["period"], ["adxr"]),
    ("msw", ["series"], ["period"], ["msw_sine", "msw_lead"]),
    ("mom", ["series"], ["period"], ["mom"]),
    ("roc", ["series"], ["period"], ["roc"]),
    ("rocr", ["series"], ["period"], ["rocr"]),
    ("lag", ["series"], ["period"], ["lag"]),
    ("max", ["series"], ["period"], ["max"]),
    ("min", ["series"], ["period"], ["min"]),
    ("sum", ["series"], ["period"], ["sum"]),
    ("stddev", ["series"], ["period"], ["stddev"]),
    ("stderr", ["series"], ["period"], ["stderr"]),
    ("md", ["series"], ["period"], ["md"]),
    ("var", ["series"], ["period"], ["var"]),
    ("avgprice", ["open", "high", "low", "close"], [], ["avgprice"]),
    ("medprice", ["high", "low"], [], ["medprice"]),
    ("typprice", ["high", "low", "close"], [], ["typprice"]),
    ("wcprice", ["high", "low", "close"], [], ["wcprice"]),
    ("atr", ["high", "low", "close"], ["period"], ["atr"]),
    ("ce", ["high", "low", "close"], ["period", "coef"], ["ce_high", "ce_low"]),
    ("natr", ["high", "low", "close"], ["period"], ["natr"]),
    ("tr", ["high", "low", "close"], [], ["tr"]),
    ("ichi", ["high", "low"], ["period9", "period26", "period52"], ["ichi_tenkan_sen", "ichi_kijun_sen", "ichi_senkou_span_A", "ichi_senkou_span_B"]),
    ("volatility", ["series"], ["period"], ["volatility"]),
    ("cvi", ["high", "low"], ["period"], ["cvi"]),
    ("crossany", ["series", "series"], [], ["crossany"]),
    ("crossover", ["series", "series"], [], ["crossover"]),
    ("decay", ["series"], ["period"], ["decay"]),
    ("edecay", ["series"], ["period"], ["edecay"]),
    ("add", ["series", "series"], [], ["add"]),
    ("sub", ["series", "series"], [], ["sub"]),
    ("mul", ["series", "series"], [], ["mul"]),
    ("div", ["series", "series"], [], ["div"]),
    ("abs", ["series"], [], ["abs"]),
    ("acos", ["series"], [], ["acos"]),
    ("asin", ["series"], [], ["asin"]),
    ("atan", ["series"], [], ["atan"]),
    ("ceil", ["series"], [], ["ceil"]),
    ("cos", ["series"], [], ["cos"]),
    ("cosh", ["series"], [], ["cosh"]),
    ("exp", ["series"], [], ["exp"]),
    ("floor", ["series"], [], ["floor"]),
    ("ln", ["series"], [], ["ln"]),
    ("log10", ["series"], [], ["log10"]),
    ("round", ["series"], [], ["round"]),
    ("sin", ["series"], [], ["sin"]),
    ("sinh", ["series"], [], ["sinh"]),
    ("sqrt", ["series"], [], ["sqrt"]),
    ("tan", ["series"], [], ["tan"]),
    ("tanh", ["series"], [], ["tanh"]),
    ("todeg", ["series"], [], ["degrees"]),
    ("torad", ["series"], [], ["radians"]),
    ("trunc", ["series"], [], ["trunc"]),
    ("vi", ["high", "low", "close"], ["period"], ["vi_p", "vi_m"])]

end Verif
