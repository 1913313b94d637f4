/-
Model of the scratch memory batch functions take with `malloc`, `calloc`, `ti_buffer_new` or `new[]`. (Functions that keep theirs in
standard containers or `ringbuf` release it by the rules of the language and are not listed.)
-/
import Verif.Model.Alloc

namespace Verif.Alloc

/-- What becomes of a request that fails: the null pointer is used all the same (buffer.c:13-21 for `ti_buffer_new`); the function returns
`TI_OUT_OF_MEMORY` at once; `new[]` throws. -/
inductive Kind where
  | unchecked
  | checked
  | throwing

/-- What the code does not control: which requests fail, whether options or size are refused at the start, whether a function called in
between reports an error. -/
structure Calls where
  fails : Nat → Bool
  refused : Bool
  trouble : Bool

/-- The statements of a batch function that matter: the checks at the start; a request; an early return on an error of a called function that
releases some of the blocks first; a release. Blocks are numbered in the order of the requests. -/
inductive Step where
  | check
  | get (k : Kind)
  | leave (drops : List Nat)
  | drop (i : Nat)

/-- Run them. `bs` are the blocks had so far, oldest first. -/
def perform (e : Calls) : List Step → List Nat → Heap → M (End × Heap)
  | [], _, h => .ok (.returned, h)
  | .check :: cs, bs, h => if e.refused then .ok (.returned, h) else perform e cs bs h
  | .get k :: cs, bs, h =>
    match alloc ⟨e.fails, false, 0⟩ h with
    | (some b, h) => perform e cs (bs ++ [b]) h
    | (none, h) =>
      match k with
      | .unchecked => .error .badPtr
      | .checked => .ok (.oom, h)
      | .throwing => .ok (.thrown, h)
  | .leave drops :: cs, bs, h =>
    if e.trouble then do return (.returned, ← releaseAll (← drops.mapM fun (i : Nat) => rd bs (i : Int)) h) else perform e cs bs h
  | .drop i :: cs, bs, h => do perform e cs bs (← release (← rd bs (i : Int)) h)

/-- `ti_abands`, abands.cc:22-79. -/
def abandsScratch : List Step := [.check, .get .unchecked, .get .unchecked, .drop 0, .drop 1]

/-- `ti_adxr`, adxr.cc:20-102. -/
def adxrScratch : List Step := [.check, .get .unchecked, .drop 0]

/-- `ti_cci`, cci.cc:23-62. -/
def cciScratch : List Step := [.check, .get .unchecked, .drop 0]

/-- `ti_cvi`, cvi.cc:18-52. -/
def cviScratch : List Step := [.check, .get .unchecked, .drop 0]

/-- `ti_hma`, hma.cc:21-99. -/
def hmaScratch : List Step := [.check, .get .unchecked, .drop 0]

/-- `ti_mass`, mass.cc:20-66. -/
def massScratch : List Step := [.check, .get .unchecked, .drop 0]

/-- `ti_mfi`, mfi.cc:18-64. -/
def mfiScratch : List Step := [.check, .get .unchecked, .get .unchecked, .drop 0, .drop 1]

/-- `ti_stoch`, stoch.cc:20-113. -/
def stochScratch : List Step := [.check, .get .unchecked, .get .unchecked, .drop 0, .drop 1]

/-- `ti_stochrsi`, stochrsi.cc:17-102. -/
def stochrsiScratch : List Step := [.check, .get .unchecked, .drop 0]

/-- `ti_ultosc`, ultosc.cc:18-90. -/
def ultoscScratch : List Step := [.check, .get .unchecked, .get .unchecked, .drop 0, .drop 1]

/-- `ti_atr_ref`, atr.cc:61-89. -/
def atrRefScratch : List Step := [.get .checked, .leave [0], .drop 0]

/-- `ti_ce_ref`, ce.cc:112-148. -/
def ceRefScratch : List Step := [.check, .get .checked, .get .unchecked, .get .unchecked, .drop 0, .drop 1, .drop 2]

/-- `ti_cmi_ref`, cmi.cc:88-114. -/
def cmiRefScratch : List Step := [.check, .get .throwing, .get .throwing, .drop 0, .drop 1]

/-- `ti_copp_ref`, copp.cc:76-115. -/
def coppRefScratch : List Step := [.check, .get .unchecked, .get .unchecked, .get .unchecked, .drop 0, .drop 1, .drop 2]

/-- `ti_hfema_ref`, hfema.cc:79-116. -/
def hfemaRefScratch : List Step := [.check, .get .throwing, .get .throwing, .drop 1, .drop 0]

/-- `ti_hfsma_ref`, hfsma.cc:75-112. -/
def hfsmaRefScratch : List Step := [.check, .get .throwing, .get .throwing, .drop 1, .drop 0]

/-- `ti_ichi_ref`, ichi.cc:185-241. -/
def ichiRefScratch : List Step := [.check, .get .throwing, .get .throwing, .get .throwing, .get .throwing, .get .throwing, .get .throwing, .drop 0, .drop 1, .drop 2, .drop 3, .drop 4, .drop 5]

/-- `ti_kst_ref`, kst.cc:108-163. -/
def kstRefScratch : List Step := [.check, .get .unchecked, .get .unchecked, .get .unchecked, .get .unchecked, .get .unchecked, .get .unchecked, .get .unchecked, .get .unchecked, .drop 0, .drop 1, .drop 2, .drop 3, .drop 4, .drop 5, .drop 6, .drop 7]

/-- `ti_mama_ref`, mama.cc:91-193. -/
def mamaRefScratch : List Step := [.check, .get .unchecked, .get .unchecked, .get .unchecked, .get .unchecked, .get .unchecked, .get .unchecked, .get .unchecked, .get .unchecked, .get .unchecked, .get .unchecked, .get .unchecked, .get .unchecked, .get .unchecked, .get .unchecked, .get .unchecked, .drop 0, .drop 1, .drop 2, .drop 3, .drop 4, .drop 5, .drop 6, .drop 7, .drop 8, .drop 9, .drop 10, .drop 11, .drop 12, .drop 13, .drop 14]

/-- `ti_mhlma_ref`, mhlma.cc:123-153. -/
def mhlmaRefScratch : List Step := [.check, .get .throwing, .get .throwing, .drop 0, .drop 1]

/-- `ti_pbands_ref`, pbands.cc:74-108. -/
def pbandsRefScratch : List Step := [.get .unchecked, .drop 0]

/-- `ti_posc_ref`, posc.cc:93-127. -/
def poscRefScratch : List Step := [.get .unchecked, .drop 0]

/-- `ti_rmi_ref`, rmi.cc:54-84. -/
def rmiRefScratch : List Step := [.check, .get .unchecked, .get .unchecked, .drop 0, .drop 1]

/-- `ti_smi_ref`, smi.cc:121-164. -/
def smiRefScratch : List Step := [.check, .get .unchecked, .get .unchecked, .get .unchecked, .get .unchecked, .drop 0, .drop 1, .drop 2, .drop 3]

/-- `ti_tsi_ref`, tsi.cc:61-91. -/
def tsiRefScratch : List Step := [.check, .get .unchecked, .get .unchecked, .drop 0, .drop 1]

/-- `ti_vwap_ref`, vwap.cc:52-89. -/
def vwapRefScratch : List Step := [.check, .get .unchecked, .drop 0]

end Verif.Alloc
