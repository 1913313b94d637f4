/-
Which sources define a stream.
-/
import Verif.Model.Table

namespace Verif

/-- The files of /repo/indicators that define `ti_<name>_stream_new` (for example sma.cc:64), by name. -/
def streamSources : List Name :=
  ([
    "ahma", "arsi", "atr", "bf2", "bf3", "ce", "cmi", "copp", "dwma", "edcf", "ehma", "emsd", "er", "evwma",
    "fi", "frama", "gf1", "gf2", "gf3", "gf4", "hd", "hf", "hfema", "hfsma", "hurst", "hwma", "ichi", "idwma",
    "kc", "lf", "lma", "mama", "mesastoch", "mgdyn", "mhlma", "pbands", "pc", "pfe", "posc", "pvt", "pwma",
    "rema", "rmf", "rmi", "roof", "rvi", "shmma", "sma", "smi", "ssmooth", "swma", "t3", "tsi", "vi", "vwap"] : List String).map bytes

end Verif
