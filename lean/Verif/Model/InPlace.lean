/-
Calls whose output array is one of the input arrays. Nothing in the library forbids them. The C code of batch functions reads
`inputs[c][j]` and writes `*output++`, so that the array holds the values written so far, followed by what is left of the input.
-/
import Verif.Core.Stream
import Verif.Core.Rows
import Verif.Model.Simple
import Verif.Model.Ema
import Verif.Model.Sum
import Verif.Model.Extremum
import Verif.Model.Range
import Verif.Model.Hampel
import Verif.Model.Filters
import Verif.Model.Flow
import Verif.Model.Chan

namespace Verif
variable {R ρ ω : Type}

/-- The rows after the values `out` were written over one of the columns: `put r y` is row `r` with `y` in that column. -/
def overWith (put : ρ → ω → ρ) : List ρ → List ω → List ρ
  | r :: rs, y :: ys => put r y :: overWith put rs ys
  | rs, _ => rs

/-- One input, one output: the array itself. -/
abbrev over (xs out : List R) : List R := overWith (fun _ y => y) xs out

/-! ### Streams -/

/-- One loop of `stream_run` (`Phase`) where the outputs go over the rows: bar `i` is read from the rows as they are by then.
The body reads its bar before it writes. -/
def Phase.loopIP {σ : Type} (put : ρ → ω → ρ) (ph : Phase ρ σ ω) (rows : List ρ) : Nat → Int → σ → List ω → M (Nat × Int × σ × List ω) :=
  fun i p s out => go (rows.length - i) i p s out
where
  /-- `n` bars are left. -/
  go : Nat → Nat → Int → σ → List ω → M (Nat × Int × σ × List ω)
    | 0, i, p, s, out => .ok (i, p, s, out)
    | n + 1, i, p, s, out =>
      if ph.cond p then
        match rd (overWith put rows out) i with
        | .error e => .error e
        | .ok r => match ph.body p r s with
          | .error e => .error e
          | .ok (s1, o1) => go n (i + 1) (p + 1) s1 (out ++ o1)
      else .ok (i, p, s, out)

/-- One call of `stream_run` in place: the outputs and, implicitly, the rows `overWith put rows out`. -/
def runPhasesIP {σ : Type} (put : ρ → ω → ρ) : List (Phase ρ σ ω) → List ρ → Nat → Int → σ → List ω → M (Int × σ × List ω)
  | [], _, _, p, s, out => .ok (p, s, out)
  | ph :: phs, rows, i, p, s, out =>
    match ph.loopIP put rows i p s out with
    | .error e => .error e
    | .ok (i', p', s', out') => runPhasesIP put phs rows i' p' s' out'

/-- `Indicator.session` with every chunk overwritten by its outputs. -/
def Indicator.sessionIP (I : Indicator R ρ ω) (put : ρ → ω → ρ) (o : Nat → R) (chunks : List (List ρ)) : M (Ret × Int × List ω) :=
  match I.new o with
  | .error e => .error e
  | .ok (.fail r) => .ok (r, 0, [])
  | .ok (.made k p s) =>
    match go k chunks p s with
    | .error e => .error e
    | .ok (p', out) => .ok (.okay, p', out)
where
  /-- One `stream_run` per chunk. -/
  go (k : I.κ) : List (List ρ) → Int → I.σ → M (Int × List ω)
    | [], p, _ => .ok (p, [])
    | c :: cs, p, s =>
      match runPhasesIP put (I.phases k) c 0 p s [] with
      | .error e => .error e
      | .ok (p1, s1, o1) =>
        match go k cs p1 s1 with
        | .error e => .error e
        | .ok (p2, o2) => .ok (p2, o1 ++ o2)

/-! ### Streams that read a bar again after writing

In atr.cc:171-172, bf2.cc:145-147, bf3.cc:161-163, kc.cc:140-144 and 152-156, tsi.cc:157-159 and 169-171 and the last loop of
ce.cc (298-301 and 327-330) the statement after `*output++ = …` stores a cell of the current bar in the state. -/

/-- One loop where, after the outputs of a bar, `late` (given the value of `progress`) stores the bar as it is in the rows by then. A loop that writes nothing
finds the bar unchanged. -/
def Phase.loopLate {σ : Type} (put : ρ → ω → ρ) (late : Int → ρ → σ → σ) (ph : Phase ρ σ ω) (rows : List ρ) :
    Nat → Int → σ → List ω → M (Nat × Int × σ × List ω) :=
  fun i p s out => go (rows.length - i) i p s out
where
  /-- `n` bars are left. -/
  go : Nat → Nat → Int → σ → List ω → M (Nat × Int × σ × List ω)
    | 0, i, p, s, out => .ok (i, p, s, out)
    | n + 1, i, p, s, out =>
      if ph.cond p then
        match rd (overWith put rows out) i with
        | .error e => .error e
        | .ok r => match ph.body p r s with
          | .error e => .error e
          | .ok (s1, o1) => match rd (overWith put rows (out ++ o1)) i with
            | .error e => .error e
            | .ok r' => go n (i + 1) (p + 1) (late p r' s1) (out ++ o1)
      else .ok (i, p, s, out)

/-- One call of `stream_run` in place. -/
def runPhasesLate {σ : Type} (put : ρ → ω → ρ) (late : Int → ρ → σ → σ) :
    List (Phase ρ σ ω) → List ρ → Nat → Int → σ → List ω → M (Int × σ × List ω)
  | [], _, _, p, s, out => .ok (p, s, out)
  | ph :: phs, rows, i, p, s, out =>
    match ph.loopLate put late rows i p s out with
    | .error e => .error e
    | .ok (i', p', s', out') => runPhasesLate put late phs rows i' p' s' out'

/-- `Indicator.session` with every chunk overwritten by its outputs and read again by `late`. -/
def Indicator.sessionLate (I : Indicator R ρ ω) (put : ρ → ω → ρ) (late : Int → ρ → I.σ → I.σ) (o : Nat → R) (chunks : List (List ρ)) :
    M (Ret × Int × List ω) :=
  match I.new o with
  | .error e => .error e
  | .ok (.fail r) => .ok (r, 0, [])
  | .ok (.made k p s) =>
    match go k chunks p s with
    | .error e => .error e
    | .ok (p', out) => .ok (.okay, p', out)
where
  /-- One `stream_run` per chunk. -/
  go (k : I.κ) : List (List ρ) → Int → I.σ → M (Int × List ω)
    | [], p, _ => .ok (p, [])
    | c :: cs, p, s =>
      match runPhasesLate put late (I.phases k) c 0 p s [] with
      | .error e => .error e
      | .ok (p1, s1, o1) =>
        match go k cs p1 s1 with
        | .error e => .error e
        | .ok (p2, o2) => .ok (p2, o1 ++ o2)

/-- `g2 = std::exchange(g1, series[i])`, bf2.cc:140 and 147. -/
def bf2Late (_ : Int) (v : R) (s : Bf2S R) : Bf2S R := { s with g1 := v }
/-- `g1 = series[i]`, bf3.cc:156 and 163. -/
def bf3Late (_ : Int) (v : R) (s : Bf3S R) : Bf3S R := { s with g1 := v }
/-- `price = series[i]`, tsi.cc:150, 159 and 171. -/
def tsiLate (_ : Int) (v : R) (s : Option R × Option (TsiE R)) : Option R × Option (TsiE R) := (some v, s.2)
/-- `last_close = close[i]`, atr.cc:172; the other loops (atr.cc:148 and 156) read it before the output of atr.cc:163. -/
def atrLate (p : Int) (r : HLC R) (s : AtrS R) : AtrS R := if p ≤ 0 then s else { s with lastClose := r.close }
/-- `prev_close = close[i]`, ce.cc:246, 272, 301 and 330. -/
def ceLate (_ : Int) (r : HLC R) (s : CeS R) : CeS R := { s with prevClose := r.close }
/-- `prev_close = close[i]`, kc.cc:144 and 156. -/
def kcLate (_ : Int) (r : HLC R) (s : KcS R) : KcS R := { s with prev := r.close }

/-! ### Batch functions -/
variable [Num R]

/-- `SIMPLE1`, simple1.h:30-41, in place. -/
def simple1IP (op : R → M R) (_ : Nat → R) (xs : List R) : M (Ret × List R) := do
  let out ← forUp 0 xs.length ([] : List R) fun i out => do
    wr xs.length out (← op (← rd (over xs out) i))
  return (.okay, out)

/-- `SIMPLE2`, simple2.h:24-40, in place of the column `put` replaces. -/
def simple2IP (put : AB R → R → AB R) (op : R → R → R) (_ : Nat → R) (xs : List (AB R)) : M (Ret × List R) := do
  let out ← forUp 0 xs.length ([] : List R) fun i out => do
    let r ← rd (overWith put xs out) i
    wr xs.length out (op r.a r.b)
  return (.okay, out)

/-- `ti_ema`, ema.cc:17-39, in place. -/
def emaIP (o : Nat → R) (xs : List R) : M (Ret × List R) := do
  let period ← toInt (o 0)
  if period < 1 then return (.invalidOption, [])
  let start ← emaStart o
  if (xs.length : Int) ≤ start then return (.okay, [])
  let cap := xs.length - start
  let per : R := emaPer period
  let val ← rd xs 0
  let out ← wr cap [] val
  let s ← forUp 1 xs.length (val, out) fun i s => do
    let val := ((← rd (over xs s.2) i) - s.1) * per + s.1
    let out ← wr cap s.2 val
    return (val, out)
  finish cap s.2

/-- `ti_mom`, mom.cc:16-32, in place. -/
def momIP (o : Nat → R) (xs : List R) : M (Ret × List R) := do
  let period ← toInt (o 0)
  if period < 1 then return (.invalidOption, [])
  let start ← startPeriod o
  if (xs.length : Int) ≤ start then return (.okay, [])
  let out ← forUp period xs.length ([] : List R) fun i out => do
    wr (xs.length - start) out ((← rd (over xs out) i) - (← rd (over xs out) (i - period)))
  finish (xs.length - start) out

/-- `ti_max`, max.cc:16-52, in place. -/
def maxIP (o : Nat → R) (xs : List R) : M (Ret × List R) := do
  let period ← toInt (o 0)
  if period < 1 then return (.invalidOption, [])
  let start ← maxStart o
  if (xs.length : Int) ≤ start then return (.okay, [])
  let cap := xs.length - start
  let m0 ← rd xs 0
  let s ← forUp (period - 1) xs.length ((0 : Int), (-1 : Int), m0, ([] : List R)) fun i (trail, maxi, max, out) => do
    let (maxi, max) ← track repMax (rd (over xs out)) trail i (maxi, max)
    let out ← wr cap out max
    return (trail + 1, maxi, max, out)
  finish cap s.2.2.2

end Verif
