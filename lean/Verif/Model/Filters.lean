/-
Models of the recursive filters: `/repo/indicators/{gf1,gf2,gf3,gf4,bf2,bf3,ssmooth,roof,lf,rema}.cc`.
`new T()` value-initialises the stream objects, so members without an initialiser start at zero.
The reference versions `ti_gf1_ref` (gf1.cc:47-68), `ti_gf2_ref` (gf2.cc:54-80), `ti_gf3_ref` (gf3.cc:55-81) and
`ti_gf4_ref` (gf4.cc:66-96) repeat the text of the batch versions and are covered by the same definitions.
-/
import Verif.Core.LoopBatch
import Verif.Model.Ring

namespace Verif
variable {R : Type} [Num R]

/-- `tables.B0` of gf1.cc:14, in millionths. -/
def gf1B0 : List Int :=
  [828427, 732051, 618034, 526602, 455887, 400720, 356896, 321416, 292186, 267730, 246990, 229192, 213760,
   200256, 188343, 177759, 168294, 159780, 152082, 145089]

/-- `tables.A1` of gf1.cc:15, in millionths. -/
def gf1A1 : List Int :=
  [171573, 267949, 381966, 473398, 544113, 599280, 643104, 678584, 707814, 732270, 753010, 770808, 786240,
   799744, 811657, 822241, 831706, 840220, 847918, 854911]

/-- `tables.B0` of gf2.cc:15, in millionths. -/
def gf2B0 : List Int :=
  [834615, 722959, 578300, 457577, 365017, 295336, 242632, 202250, 170835, 146017, 126125, 109966, 96680, 85633,
   76357, 68496, 61779, 55996, 50984, 46612]

/-- `tables.A1` of gf2.cc:16, in millionths. -/
def gf2A1 : List Int :=
  [172854, 299460, 479080, 647112, 791668, 913103, 1014847, 1100556, 1173357, 1235757, 1289719, 1336777,
   1378133, 1414738, 1447346, 1476567, 1502894, 1526729, 1548408, 1568205]

/-- `tables.A2` of gf2.cc:17, in millionths. -/
def gf2A2 : List Int :=
  [-7470, -22419, -57379, -104688, -156684, -208439, -257479, -302806, -344192, -381774, -415844, -446743,
   -474813, -500371, -523703, -545063, -564672, -582726, -599392, -614817]

/-- `tables.B0` of gf3.cc:15, in millionths. -/
def gf3B0 : List Int :=
  [836701, 718670, 558792, 422292, 318295, 242068, 186612, 146016, 115940, 93340, 76111, 62791, 52354, 44075,
   37432, 32045, 27635, 23991, 20956, 18409]

/-- `tables.B0` of gf4.cc:15, in millionths. -/
def gf4B0 : List Int :=
  [837747, 716200, 547128, 400596, 289459, 209659, 153408, 113779, 85632, 65397, 50648, 39744, 31571, 25363,
   20589, 16875, 13953, 11632, 9770, 8263]

/-- `tables.A1` of gf4.cc:16, in millionths. -/
def gf4A1 : List Int :=
  [173178, 320247, 559812, 817734, 1066023, 1293310, 1496649, 1676861, 1836187, 1977213, 2102418, 2214012,
   2313903, 2403709, 2484797, 2558316, 2625237, 2686378, 2742435, 2794000]

/-- `tables.A2` of gf4.cc:17, in millionths. -/
def gf4A2 : List Int :=
  [-11247, -38459, -117521, -250758, -426152, -627244, -839984, -1054449, -1264344, -1466015, -1657560,
   -1838193, -2007804, -2166681, -2315331, -2454368, -2584450, -2706235, -2820356, -2927413]

/-- `tables.A3` of gf4.cc:18, in millionths. -/
def gf4A3 : List Int :=
  [325, 2053, 10965, 34176, 75715, 135204, 209527, 294694, 386929, 483104, 580814, 678297, 774311, 868012,
   958854, 1046508, 1130799, 1211662, 1289107, 1363199]

/-- `tables.A4` of gf4.cc:19, in millionths. -/
def gf4A4 : List Int :=
  [4, 41, 384, 1747, 5045, 10929, 19599, 30885, 44405, 59700, 76320, 93860, 111980, 130403, 148910, 167331,
   185538, 203436, 220956, 238049]

/-- `tables.B0` of bf2.cc:20, in millionths. -/
def bf2B0 : List Int :=
  [285784, 203973, 130825, 88501, 63284, 47322, 36654, 29198, 23793, 19754, 16658, 14235, 12303, 10739, 9454,
   8386, 7490, 6729, 6079, 5518]

/-- `tables.B1` of bf2.cc:21, in millionths. -/
def bf2B1 : List Int :=
  [571568, 407946, 261650, 177002, 126567, 94643, 73308, 58397, 47586, 39507, 33317, 28470, 24607, 21477, 18908,
   16773, 14980, 13459, 12158, 11037]

/-- `tables.B2` of bf2.cc:22, in millionths. -/
def bf2B2 : List Int :=
  [285784, 203973, 130825, 88501, 63284, 47322, 36654, 29198, 23793, 19754, 16658, 14235, 12303, 10739, 9454,
   8386, 7490, 6729, 6079, 5518]

/-- `tables.A1` of bf2.cc:23, in millionths. -/
def bf2A1 : List Int :=
  [-131366, 292597, 704171, 975372, 1158161, 1287652, 1383531, 1457120, 1515266, 1562309, 1601119, 1633667,
   1661342, 1685157, 1705862, 1724025, 1740086, 1754388, 1767204, 1778753]

/-- `tables.A2` of bf2.cc:24, in millionths. -/
def bf2A2 : List Int :=
  [-11770, -108489, -227470, -329377, -411296, -476938, -530147, -573914, -610438, -641324, -667753, -690607,
   -710555, -728112, -743678, -757571, -770045, -781305, -791520, -800827]

/-- `tables.B0` of bf3.cc:20, in millionths. -/
def bf3B0 : List Int :=
  [170149, 100733, 50373, 27610, 16541, 10629, 7213, 5111, 3750, 2831, 2188, 1726, 1385, 1128, 931, 778, 656,
   558, 479, 414]

/-- `tables.B1` of bf3.cc:21, in millionths. -/
def bf3B1 : List Int :=
  [510448, 302200, 151118, 82830, 49622, 31887, 21640, 15334, 11250, 8492, 6565, 5179, 4156, 3385, 2794, 2333,
   1967, 1674, 1437, 1242]

/-- `tables.B2` of bf3.cc:22, in millionths. -/
def bf3B2 : List Int :=
  [510448, 302200, 151118, 82830, 49622, 31887, 21640, 15334, 11250, 8492, 6565, 5179, 4156, 3385, 2794, 2333,
   1967, 1674, 1437, 1242]

/-- `tables.B3` of bf3.cc:23, in millionths. -/
def bf3B3 : List Int :=
  [170149, 100733, 50373, 27610, 16541, 10629, 7213, 5111, 3750, 2831, 2188, 1726, 1385, 1128, 931, 778, 656,
   558, 479, 414]

/-- `tables.A1` of bf3.cc:24, in millionths. -/
def bf3A1 : List Int :=
  [-336246, 398405, 1080990, 1505892, 1783327, 1976163, 2117205, 2224560, 2308883, 2376806, 2432658, 2479376,
   2519020, 2553078, 2582648, 2608560, 2631451, 2651819, 2670059, 2686486]

/-- `tables.A2` of bf3.cc:25, in millionths. -/
def bf3A2 : List Int :=
  [-26816, -247486, -607116, -934652, -1200263, -1412114, -1582459, -1721388, -1836396, -1932941, -2015013,
   -2085571, -2146834, -2200500, -2247883, -2290012, -2327708, -2361631, -2392315, -2420202]

/-- `tables.A3` of bf3.cc:26, in millionths. -/
def bf3A3 : List Int :=
  [1867, 43214, 123145, 207880, 284610, 350920, 407548, 455938, 497514, 533488, 564848, 592385, 616731, 638395,
   657784, 675232, 691011, 705347, 718425, 730403]

/-- `tables.X[i]`: a six-digit decimal literal. -/
def tab (l : List Int) (i : Int) : M R := do
  let n ← rd l i
  return (n : R) / c! 1000000

/-- Entry of a coefficient table for period `2·q` (used to state what the filters compute). -/
def coef (l : List Int) (q : Nat) : R := ((l.getD (q - 1) 0 : Int) : R) / c! 1000000

/-- The checks `period < 1`, `period % 2 != 0`, `period > 40` (e.g. gf1.cc:29-31). -/
def gfBad (period : Int) : Prop := period < 1 ∨ Int.tmod period 2 ≠ 0 ∨ 40 < period

instance (p : Int) : Decidable (gfBad p) := inferInstanceAs (Decidable (_ ∨ _ ∨ _))

/-! ### gf1 -/

/-- `ti_gf1_start`, gf1.cc:18-22. -/
def gf1Start (o : Nat → R) : M Int := do
  let _ ← toInt (o 0)
  return 0

/-- `ti_gf1`, gf1.cc:24-45: the sum of the coefficients divides. -/
def gf1Batch (o : Nat → R) (xs : List R) : M (Ret × List R) := do
  let period ← toInt (o 0)
  if gfBad period then return (.invalidOption, [])
  let B0 : R ← tab gf1B0 (period.tdiv 2 - 1)
  let A1 : R ← tab gf1A1 (period.tdiv 2 - 1)
  let cap := (xs.length : Int) - (← gf1Start o)
  loopBatch cap
    [ { cond := fun _ => true
        body := fun _ v f => do
          let f := (B0 * v + A1 * f) / (B0 + A1)
          return (f, [f]) } ] 0 (c! 0) xs

/-- Constants of `ti_gf1_stream`, gf1.cc:72-84; its copies of `B0` and `A1` are never used. -/
structure Gf1K (R : Type) where
  period : Int
  csum_recipr : R

/-- `ti_gf1_stream_new`, gf1.cc:87-108. -/
def gf1New (o : Nat → R) : M (NewRes (Gf1K R) R) := do
  let period ← toInt (o 0)
  if gfBad period then return .fail .invalidOption
  let start ← gf1Start o
  let B0 : R ← tab gf1B0 (period.tdiv 2 - 1)
  let A1 : R ← tab gf1A1 (period.tdiv 2 - 1)
  return .made ⟨period, c! 1 / (B0 + A1)⟩ (-start) (c! 0)

/-- `ti_gf1_stream_run`, gf1.cc:114-136: the reciprocal of the sum multiplies, the tables are read again. -/
def gf1Phases (k : Gf1K R) : List (Phase R R R) :=
  [ { cond := fun _ => true
      body := fun _ v f => do
        let B0 : R ← tab gf1B0 (k.period.tdiv 2 - 1)
        let A1 : R ← tab gf1A1 (k.period.tdiv 2 - 1)
        let f := (B0 * v + A1 * f) * k.csum_recipr
        return (f, [f]) } ]

def gf1 : Indicator R R R where
  κ := Gf1K R
  σ := R
  start := gf1Start
  batch := gf1Batch
  new := gf1New
  phases := gf1Phases

/-! ### gf2 -/

/-- `ti_gf2_start`, gf2.cc:20-24. -/
def gf2Start (o : Nat → R) : M Int := do
  let _ ← toInt (o 0)
  return 0

/-- The constants of gf2.cc:92-97. -/
structure Gf2K (R : Type) where
  B0 : R
  A1 : R
  A2 : R
  csum_recipr : R

/-- gf2.cc:37-43, 65-71 and 116-120. -/
def gf2Coef (period : Int) : M (Gf2K R) := do
  let idx := period.tdiv 2 - 1
  let B0 : R ← tab gf2B0 idx
  let A1 : R ← tab gf2A1 idx
  let A2 : R ← tab gf2A2 idx
  return ⟨B0, A1, A2, c! 1 / (B0 + A1 + A2)⟩

/-- The loop gf2.cc:46-49 and 143-146. -/
def gf2Phases (k : Gf2K R) : List (Phase R (Ring R) R) :=
  [ { cond := fun _ => true
      body := fun _ v f => do
        let v := (k.B0 * v + k.A1 * (← f.get 1) + k.A2 * (← f.get 2)) * k.csum_recipr
        let f ← f.set v
        return (f.step, [v]) } ]

/-- `ti_gf2`, gf2.cc:26-52. -/
def gf2Batch (o : Nat → R) (xs : List R) : M (Ret × List R) := do
  let period ← toInt (o 0)
  if gfBad period then return (.invalidOption, [])
  let f ← Ring.make 3
  let k ← gf2Coef period
  let cap := (xs.length : Int) - (← gf2Start o)
  loopBatch cap (gf2Phases k) 0 f xs

/-- `ti_gf2_stream_new`, gf2.cc:100-123. -/
def gf2New (o : Nat → R) : M (NewRes (Gf2K R) (Ring R)) := do
  let period ← toInt (o 0)
  if gfBad period then return .fail .invalidOption
  let start ← gf2Start o
  let k ← gf2Coef period
  let f ← Ring.make 3
  return .made k (-start) f

def gf2 : Indicator R R R where
  κ := Gf2K R
  σ := Ring R
  start := gf2Start
  batch := gf2Batch
  new := gf2New
  phases := gf2Phases

/-! ### gf3 -/

/-- `ti_gf3_start`, gf3.cc:21-25. -/
def gf3Start (o : Nat → R) : M Int := do
  let _ ← toInt (o 0)
  return 0

/-- The coefficients of gf3.cc:93-99. -/
structure Gf3K (R : Type) where
  B0 : R
  A1 : R
  A2 : R
  A3 : R
  csum_recipr : R

/-- gf3.cc:38-44, 66-72 and 118-123: `A1`, `A2` and `A3` are read from `tables.B0`, as in the source. -/
def gf3Coef (period : Int) : M (Gf3K R) := do
  let idx := period.tdiv 2 - 1
  let B0 : R ← tab gf3B0 idx
  let A1 : R ← tab gf3B0 idx
  let A2 : R ← tab gf3B0 idx
  let A3 : R ← tab gf3B0 idx
  return ⟨B0, A1, A2, A3, c! 1 / (B0 + A1 + A2 + A3)⟩

/-- The loop gf3.cc:47-50 and 148-151. -/
def gf3Phases (k : Gf3K R) : List (Phase R (Ring R) R) :=
  [ { cond := fun _ => true
      body := fun _ v f => do
        let v := (k.B0 * v + k.A1 * (← f.get 1) + k.A2 * (← f.get 2) + k.A3 * (← f.get 3)) * k.csum_recipr
        let f ← f.set v
        return (f.step, [v]) } ]

/-- `ti_gf3`, gf3.cc:27-53. -/
def gf3Batch (o : Nat → R) (xs : List R) : M (Ret × List R) := do
  let period ← toInt (o 0)
  if gfBad period then return (.invalidOption, [])
  let f ← Ring.make 4
  let k ← gf3Coef period
  let cap := (xs.length : Int) - (← gf3Start o)
  loopBatch cap (gf3Phases k) 0 f xs

/-- `ti_gf3_stream_new`, gf3.cc:102-126. -/
def gf3New (o : Nat → R) : M (NewRes (Gf3K R) (Ring R)) := do
  let period ← toInt (o 0)
  if gfBad period then return .fail .invalidOption
  let start ← gf3Start o
  let k ← gf3Coef period
  let f ← Ring.make 4
  return .made k (-start) f

def gf3 : Indicator R R R where
  κ := Gf3K R
  σ := Ring R
  start := gf3Start
  batch := gf3Batch
  new := gf3New
  phases := gf3Phases

/-! ### gf4 -/

/-- `ti_gf4_start`, gf4.cc:22-26. -/
def gf4Start (o : Nat → R) : M Int := do
  let _ ← toInt (o 0)
  return 0

/-- The coefficients of gf4.cc:108-115. -/
structure Gf4K (R : Type) where
  B0 : R
  A1 : R
  A2 : R
  A3 : R
  A4 : R
  csum_reciproc : R

/-- gf4.cc:44-51, 77-83 and 134-146. -/
def gf4Coef (period : Int) : M (Gf4K R) := do
  let idx := period.tdiv 2 - 1
  let B0 : R ← tab gf4B0 idx
  let A1 : R ← tab gf4A1 idx
  let A2 : R ← tab gf4A2 idx
  let A3 : R ← tab gf4A3 idx
  let A4 : R ← tab gf4A4 idx
  return ⟨B0, A1, A2, A3, A4, c! 1 / (B0 + A1 + A2 + A3 + A4)⟩

/-- Body of the loops gf4.cc:54-57 and 172-175. -/
def gf4Copy (f : Ring R) (v : R) : M (Ring R × R) := do
  let f ← f.set v
  return (f.step, v)

/-- Body of the loops gf4.cc:58-61 and 176-179. -/
def gf4Filt (k : Gf4K R) (f : Ring R) (v : R) : M (Ring R × R) := do
  let v := (k.B0 * v + k.A1 * (← f.get 1) + k.A2 * (← f.get 2) + k.A3 * (← f.get 3) + k.A4 * (← f.get 4)) * k.csum_reciproc
  let f ← f.set v
  return (f.step, v)

/-- `ti_gf4`, gf4.cc:33-64: the first loop, 54-57, runs to 5 without looking at `size`. -/
def gf4Batch (o : Nat → R) (xs : List R) : M (Ret × List R) := do
  let period ← toInt (o 0)
  if gfBad period then return (.invalidOption, [])
  let f ← Ring.make (R := R) 5
  let k ← gf4Coef period
  let size : Int := xs.length
  let cap := size - (← gf4Start o)
  let s ← forUp 0 5 (f, ([] : List R)) fun i s => do
    let q ← gf4Copy s.1 (← rd xs i)
    return (q.1, ← wr cap s.2 q.2)
  let s ← forUp 5 size s fun i s => do
    let q ← gf4Filt k s.1 (← rd xs i)
    return (q.1, ← wr cap s.2 q.2)
  return (.okay, s.2)

/-- `ti_gf4_stream_new`, gf4.cc:118-149. -/
def gf4New (o : Nat → R) : M (NewRes (Gf4K R) (Ring R)) := do
  let period ← toInt (o 0)
  if gfBad period then return .fail .invalidOption
  let start ← gf4Start o
  let k ← gf4Coef period
  let f ← Ring.make 5
  return .made k (-start) f

/-- `ti_gf4_stream_run`, gf4.cc:155-184. -/
def gf4Phases (k : Gf4K R) : List (Phase R (Ring R) R) :=
  [ { cond := fun p => decide (p < 5)
      body := fun _ v f => do
        let q ← gf4Copy f v
        return (q.1, [q.2]) },
    { cond := fun _ => true
      body := fun _ v f => do
        let q ← gf4Filt k f v
        return (q.1, [q.2]) } ]

def gf4 : Indicator R R R where
  κ := Gf4K R
  σ := Ring R
  start := gf4Start
  batch := gf4Batch
  new := gf4New
  phases := gf4Phases

/-! ### bf2 -/

/-- `ti_bf2_start`, bf2.cc:13-17: computed from the untruncated option. -/
def bf2Start (o : Nat → R) : M Int :=
  toInt (CMath.ceil (c! 2 * o 0 / ((c! 31415 / c! 10000) * (c! 31415 / c! 10000))))

/-- The checks of bf2.cc:32-34 and bf3.cc:34-36; the first one looks at the untruncated option. -/
def bfBad (o : Nat → R) : M Bool :=
  if o 0 < c! 1 then .ok true
  else do
    let p ← toInt (o 0)
    return decide (Int.tmod p 2 ≠ 0 ∨ 40 < p)

/-- The coefficients of bf2.cc:80-86. -/
structure Bf2K (R : Type) where
  B0 : R
  B1 : R
  B2 : R
  A1 : R
  A2 : R

/-- bf2.cc:36-40 and 105-109. -/
def bf2Coef (o : Nat → R) : M (Bf2K R) := do
  let p ← toInt (o 0)
  let B0 : R ← tab bf2B0 (p.tdiv 2 - 1)
  let B1 : R ← tab bf2B1 (p.tdiv 2 - 1)
  let B2 : R ← tab bf2B2 (p.tdiv 2 - 1)
  let A1 : R ← tab bf2A1 (p.tdiv 2 - 1)
  let A2 : R ← tab bf2A2 (p.tdiv 2 - 1)
  return ⟨B0, B1, B2, A1, A2⟩

/-- The state of bf2.cc:42-45 and 73-78. -/
structure Bf2S (R : Type) where
  f1 : R
  f2 : R
  g1 : R
  g2 : R

/-- The value computed at bf2.cc:51, 57, 138, 144. -/
def bf2Val (k : Bf2K R) (s : Bf2S R) (v : R) : R := k.A1 * s.f1 + k.A2 * s.f2 + k.B0 * v + k.B1 * s.g1 + k.B2 * s.g2

/-- The loops bf2.cc:50-62 and 137-149 (batch and stream count `progress` in the same way). -/
def bf2Phases (k : Bf2K R) : List (Phase R (Bf2S R) R) :=
  [ { cond := fun p => decide (p < 0)
      body := fun _ v s => do
        let f := bf2Val k s v
        return (⟨f, s.f1, v, s.g1⟩, []) },
    { cond := fun _ => true
      body := fun _ v s => do
        let f := bf2Val k s v
        return (⟨f, s.f1, v, s.g1⟩, [f]) } ]

/-- `ti_bf2`, bf2.cc:27-65. -/
def bf2Batch (o : Nat → R) (xs : List R) : M (Ret × List R) := do
  if (← bfBad o) then return (.invalidOption, [])
  let k ← bf2Coef o
  let start ← bf2Start o
  loopBatch ((xs.length : Int) - start) (bf2Phases k) (-start) ⟨c! 0, c! 0, c! 0, c! 0⟩ xs

/-- `ti_bf2_stream_new`, bf2.cc:89-112. -/
def bf2New (o : Nat → R) : M (NewRes (Bf2K R) (Bf2S R)) := do
  if (← bfBad o) then return .fail .invalidOption
  let start ← bf2Start o
  let k ← bf2Coef o
  return .made k (-start) ⟨c! 0, c! 0, c! 0, c! 0⟩

def bf2 : Indicator R R R where
  κ := Bf2K R
  σ := Bf2S R
  start := bf2Start
  batch := bf2Batch
  new := bf2New
  phases := bf2Phases

/-! ### bf3 -/

/-- `ti_bf3_start`, bf3.cc:13-17. -/
def bf3Start (o : Nat → R) : M Int :=
  toInt (CMath.ceil (c! 3 * o 0 / ((c! 31415 / c! 10000) * (c! 31415 / c! 10000))))

/-- The coefficients of bf3.cc:88-96. -/
structure Bf3K (R : Type) where
  B0 : R
  B1 : R
  B2 : R
  B3 : R
  A1 : R
  A2 : R
  A3 : R

/-- bf3.cc:38-44 and 115-121. -/
def bf3Coef (o : Nat → R) : M (Bf3K R) := do
  let p ← toInt (o 0)
  let B0 : R ← tab bf3B0 (p.tdiv 2 - 1)
  let B1 : R ← tab bf3B1 (p.tdiv 2 - 1)
  let B2 : R ← tab bf3B2 (p.tdiv 2 - 1)
  let B3 : R ← tab bf3B3 (p.tdiv 2 - 1)
  let A1 : R ← tab bf3A1 (p.tdiv 2 - 1)
  let A2 : R ← tab bf3A2 (p.tdiv 2 - 1)
  let A3 : R ← tab bf3A3 (p.tdiv 2 - 1)
  return ⟨B0, B1, B2, B3, A1, A2, A3⟩

/-- The state of bf3.cc:46-51 and 79-86. -/
structure Bf3S (R : Type) where
  f1 : R
  f2 : R
  f3 : R
  g1 : R
  g2 : R
  g3 : R

/-- The value computed at bf3.cc:57, 63, 154, 160. -/
def bf3Val (k : Bf3K R) (s : Bf3S R) (v : R) : R :=
  k.A1 * s.f1 + k.A2 * s.f2 + k.A3 * s.f3 + k.B0 * v + k.B1 * s.g1 + k.B2 * s.g2 + k.B3 * s.g3

/-- The loops bf3.cc:56-68 and 153-165 (batch and stream count `progress` in the same way). -/
def bf3Phases (k : Bf3K R) : List (Phase R (Bf3S R) R) :=
  [ { cond := fun p => decide (p < 0)
      body := fun _ v s => do
        let f := bf3Val k s v
        return (⟨f, s.f1, s.f2, v, s.g1, s.g2⟩, []) },
    { cond := fun _ => true
      body := fun _ v s => do
        let f := bf3Val k s v
        return (⟨f, s.f1, s.f2, v, s.g1, s.g2⟩, [f]) } ]

/-- `ti_bf3`, bf3.cc:29-71. -/
def bf3Batch (o : Nat → R) (xs : List R) : M (Ret × List R) := do
  if (← bfBad o) then return (.invalidOption, [])
  let k ← bf3Coef o
  let start ← bf3Start o
  loopBatch ((xs.length : Int) - start) (bf3Phases k) (-start) ⟨c! 0, c! 0, c! 0, c! 0, c! 0, c! 0⟩ xs

/-- `ti_bf3_stream_new`, bf3.cc:99-124. -/
def bf3New (o : Nat → R) : M (NewRes (Bf3K R) (Bf3S R)) := do
  if (← bfBad o) then return .fail .invalidOption
  let start ← bf3Start o
  let k ← bf3Coef o
  return .made k (-start) ⟨c! 0, c! 0, c! 0, c! 0, c! 0, c! 0⟩

def bf3 : Indicator R R R where
  κ := Bf3K R
  σ := Bf3S R
  start := bf3Start
  batch := bf3Batch
  new := bf3New
  phases := bf3Phases

/-! ### ssmooth -/

/-- `a1`, ssmooth.cc:26 and 59; roof.cc:30 and 68. -/
def ssA1 : R := CMath.exp (-(c! 1414 / c! 1000) * (c! 314159 / c! 100000) / c! 10)
/-- `b1 = c2`, ssmooth.cc:27-28; roof.cc:31-32. -/
def ssC2 : R := c! 2 * ssA1 * CMath.cos ((c! 1414 / c! 1000) * (c! 314159 / c! 100000) / c! 10)
/-- `c3`, ssmooth.cc:29; roof.cc:33. -/
def ssC3 : R := -(ssA1 (R := R)) * ssA1
/-- `c1`, ssmooth.cc:30; roof.cc:34. -/
def ssC1 : R := c! 1 - ssC2 - ssC3

/-- `ti_ssmooth_start`, ssmooth.cc:14-16. -/
def ssmoothStart (_ : Nat → R) : M Int := .ok 0

/-- The state of ssmooth.cc:22-24 and 52-56. -/
structure SsS (R : Type) where
  price1 : R
  filt1 : R
  filt2 : R

/-- The loop ssmooth.cc:33-41 and 99-107. -/
def ssmoothPhases : List (Phase R (SsS R) R) :=
  [ { cond := fun _ => true
      body := fun _ price s => do
        let filt := ssC1 * (price + s.price1) / c! 2 + ssC2 * s.filt1 + ssC3 * s.filt2
        return (⟨price, filt, s.filt1⟩, [filt]) } ]

/-- `ti_ssmooth`, ssmooth.cc:18-44. -/
def ssmoothBatch (o : Nat → R) (xs : List R) : M (Ret × List R) := do
  let cap := (xs.length : Int) - (← ssmoothStart o)
  loopBatch cap ssmoothPhases 0 ⟨c! 0, c! 0, c! 0⟩ xs

/-- `ti_ssmooth_stream_new`, ssmooth.cc:67-76. -/
def ssmoothNew (o : Nat → R) : M (NewRes Unit (SsS R)) := do
  let start ← ssmoothStart o
  return .made () (-start) ⟨c! 0, c! 0, c! 0⟩

def ssmooth : Indicator R R R where
  κ := Unit
  σ := SsS R
  start := ssmoothStart
  batch := ssmoothBatch
  new := ssmoothNew
  phases := fun _ => ssmoothPhases

/-! ### roof -/

/-- The angle `.707*2*3.14159 / 48`, roof.cc:29 and 67. -/
def roofAngle : R := (c! 707 / c! 1000) * c! 2 * (c! 314159 / c! 100000) / c! 48
/-- `alpha1`, roof.cc:29 and 67. -/
def roofAlpha : R := (CMath.cos roofAngle + CMath.sin roofAngle - c! 1) / CMath.cos roofAngle

/-- `ti_roof_start`, roof.cc:13-15. -/
def roofStart (_ : Nat → R) : M Int := .ok 0

/-- The state of roof.cc:22-27 and 57-64. -/
structure RoofS (R : Type) where
  price1 : R
  price2 : R
  HP1 : R
  HP2 : R
  filt1 : R
  filt2 : R

/-- The loop roof.cc:36-46 and 112-122. -/
def roofPhases : List (Phase R (RoofS R) R) :=
  [ { cond := fun _ => true
      body := fun _ price s => do
        let a : R := roofAlpha
        let HP := (c! 1 - a / c! 2) * (c! 1 - a / c! 2) * (price - c! 2 * s.price1 + s.price2) + c! 2 * (c! 1 - a) * s.HP1
          - (c! 1 - a) * (c! 1 - a) * s.HP2
        let filt := ssC1 * (HP + s.HP1) / c! 2 + ssC2 * s.filt1 + ssC3 * s.filt2
        return (⟨price, s.price1, HP, s.HP1, filt, s.filt1⟩, [filt]) } ]

/-- `ti_roof`, roof.cc:17-49. -/
def roofBatch (o : Nat → R) (xs : List R) : M (Ret × List R) := do
  let cap := (xs.length : Int) - (← roofStart o)
  loopBatch cap roofPhases 0 ⟨c! 0, c! 0, c! 0, c! 0, c! 0, c! 0⟩ xs

/-- `ti_roof_stream_new`, roof.cc:76-85. -/
def roofNew (o : Nat → R) : M (NewRes Unit (RoofS R)) := do
  let start ← roofStart o
  return .made () (-start) ⟨c! 0, c! 0, c! 0, c! 0, c! 0, c! 0⟩

def roof : Indicator R R R where
  κ := Unit
  σ := RoofS R
  start := roofStart
  batch := roofBatch
  new := roofNew
  phases := fun _ => roofPhases

/-! ### lf -/

/-- `ti_lf_start`, lf.cc:13-17. -/
def lfStart (_ : Nat → R) : M Int := .ok 0

/-- The state of lf.cc:26-29 and 55-60. -/
structure LfS (R : Type) where
  L0 : R
  L1 : R
  L2 : R
  L3 : R

/-- The loop lf.cc:32-44 and 101-113. -/
def lfPhases (gamma : R) : List (Phase R (LfS R) R) :=
  [ { cond := fun _ => true
      body := fun _ v s => do
        let L0 := (c! 1 - gamma) * v + gamma * s.L0
        let L1 := -gamma * L0 + s.L0 + gamma * s.L1
        let L2 := -gamma * L1 + s.L1 + gamma * s.L2
        let L3 := -gamma * L2 + s.L2 + gamma * s.L3
        return (⟨L0, L1, L2, L3⟩, [(L0 + c! 2 * L1 + c! 2 * L2 + L3) / c! 6]) } ]

/-- `ti_lf`, lf.cc:19-47. -/
def lfBatch (o : Nat → R) (xs : List R) : M (Ret × List R) := do
  let gamma := o 0
  if gamma < c! 0 then return (.invalidOption, [])
  let cap := (xs.length : Int) - (← lfStart o)
  loopBatch cap (lfPhases gamma) 0 ⟨c! 0, c! 0, c! 0, c! 0⟩ xs

/-- `ti_lf_stream_new`, lf.cc:67-82. -/
def lfNew (o : Nat → R) : M (NewRes R (LfS R)) := do
  let gamma := o 0
  if gamma < c! 0 then return .fail .invalidOption
  let start ← lfStart o
  return .made gamma (-start) ⟨c! 0, c! 0, c! 0, c! 0⟩

def lf : Indicator R R R where
  κ := R
  σ := LfS R
  start := lfStart
  batch := lfBatch
  new := lfNew
  phases := lfPhases

/-! ### rema -/

/-- `ti_rema_start`, rema.cc:14-19. -/
def remaStart (_ : Nat → R) : M Int := .ok 0

/-- The checks of rema.cc:27-28 and 75-76. -/
def remaBad (o : Nat → R) : Prop := o 0 < c! 1 ∨ o 1 < c! 0

instance (o : Nat → R) : Decidable (remaBad o) := inferInstanceAs (Decidable (_ ∨ _))

/-- Constants of rema.cc:56-59, 66-68, 30 and 88: `lambda`, `alpha`. -/
structure RemaK (R : Type) where
  lambda : R
  alpha : R

/-- The loops rema.cc:35-49 and 110-124: `rema_val`, `rema_val1`.  In the batch function (rema.cc:31-32) the two
variables have no initial value: `none`; the stream members start at zero. -/
def remaPhases (k : RemaK R) : List (Phase R (Option R × Option R) R) :=
  [ { cond := fun p => decide (p = 0)
      body := fun _ v s => return ((some v, s.2), [v]) },
    { cond := fun p => decide (p = 1)
      body := fun _ v s =>
        match s.1 with
        | none => .error .uninit
        | some r =>
          let r' := (v - r) * k.alpha + r
          return ((some r', some r), [r']) },
    { cond := fun _ => true
      body := fun _ v s =>
        match s with
        | (some r, some r1) =>
          let r' := (r * (c! 1 + c! 2 * k.lambda) + k.alpha * (v - r) - k.lambda * r1) / (c! 1 + k.lambda)
          return ((some r', some r), [r'])
        | _ => .error .uninit } ]

/-- `ti_rema`, rema.cc:21-52. -/
def remaBatch (o : Nat → R) (xs : List R) : M (Ret × List R) := do
  if remaBad o then return (.invalidOption, [])
  let cap := (xs.length : Int) - (← remaStart o)
  loopBatch cap (remaPhases ⟨o 1, c! 2 / (c! 1 + o 0)⟩) 0 (none, none) xs

/-- `ti_rema_stream_new`, rema.cc:71-91. -/
def remaNew (o : Nat → R) : M (NewRes (RemaK R) (Option R × Option R)) := do
  if remaBad o then return .fail .invalidOption
  let start ← remaStart o
  return .made ⟨o 1, c! 2 / (c! 1 + o 0)⟩ (-start) (some (c! 0), some (c! 0))

def rema : Indicator R R R where
  κ := RemaK R
  σ := Option R × Option R
  start := remaStart
  batch := remaBatch
  new := remaNew
  phases := remaPhases

end Verif
