/-
IEEE 754 binary64, the format of `double` (`typedef double TI_REAL`, `/repo/codegen.py:110`), as a type the kernel
can compute with.

Every finite double is a whole number of units `2^-1074`; `fin s k` is `k` units, negative if `s`.  The operations
`+ - * /`, `sqrt` and the conversion from `int` return the exact result rounded to the nearest double, ties to even,
gradual underflow included, overflow going to infinity (round-to-nearest, the default mode).  Comparisons follow
IEEE: nothing compares with a NaN, and `+0 == -0`.

Simplifications, besides the usual ones of a C++ compiler being IEEE conforming (no fused multiply-add, no excess
precision, no `-ffast-math`): there is one NaN (no payloads), and the functions IEEE 754 does not pin down (`log`,
`sin`, `pow`, …) are arbitrary (`Libm`).
-/
import Verif.Core.Num
import Verif.Core.Rounding

namespace Verif

/-- A double: a finite one has at most 53 significant bits and is below the overflow threshold. -/
inductive F64 where
  | nan
  | inf (neg : Bool)
  | fin (neg : Bool) (units : Nat) (ok : F64.Rep units ∧ units < F64.limit)
  deriving DecidableEq

namespace F64

/-- The double nearest to `±n/d` units. -/
def round (neg : Bool) (n d : Nat) : F64 :=
  if h : roundNat n d < limit then fin neg (roundNat n d) ⟨roundNat_rep' n d, h⟩ else inf neg

def zero (neg : Bool) : F64 := fin neg 0 ⟨Rep.zero, limit_pos⟩

def neg : F64 → F64
  | nan => nan
  | inf s => inf !s
  | fin s k h => fin (!s) k h

/-- An exact zero difference is `+0` unless both operands are negative. -/
def add : F64 → F64 → F64
  | nan, _ => nan
  | _, nan => nan
  | inf s, inf t => if s = t then inf s else nan
  | inf s, fin _ _ _ => inf s
  | fin _ _ _, inf t => inf t
  | fin s a _, fin t b _ =>
    if s = t then round s (a + b) 1
    else if b < a then round s (a - b) 1
    else if a < b then round t (b - a) 1
    else zero false

def mul : F64 → F64 → F64
  | nan, _ => nan
  | _, nan => nan
  | inf s, inf t => inf (s != t)
  | inf s, fin t b _ => if b = 0 then nan else inf (s != t)
  | fin s a _, inf t => if a = 0 then nan else inf (s != t)
  | fin s a _, fin t b _ => round (s != t) (a * b) one

def div : F64 → F64 → F64
  | nan, _ => nan
  | _, nan => nan
  | inf _, inf _ => nan
  | inf s, fin t _ _ => inf (s != t)
  | fin s _ _, inf t => zero (s != t)
  | fin s a _, fin t b _ =>
    if b = 0 then (if a = 0 then nan else inf (s != t)) else round (s != t) (a * one) b

/-- The conversion `int → double`. -/
def ofInt (i : Int) : F64 := round (decide (i < 0)) (i.natAbs * one) 1

/-- The number of units of a finite double, with its sign. -/
def units : Bool → Nat → Int
  | false, k => k
  | true, k => -k

/-- `a < b`; false if either is a NaN. -/
def lt : F64 → F64 → Bool
  | fin s a _, fin t b _ => decide (units s a < units t b)
  | inf s, inf t => s && !t
  | inf s, fin _ _ _ => s
  | fin _ _ _, inf t => !t
  | _, _ => false

/-- `a <= b`; false if either is a NaN. -/
def le : F64 → F64 → Bool
  | fin s a _, fin t b _ => decide (units s a ≤ units t b)
  | inf s, inf t => s || !t
  | inf s, fin _ _ _ => s
  | fin _ _ _, inf t => !t
  | _, _ => false

/-- `a == b`; false if either is a NaN. -/
def eq (a b : F64) : Bool := le a b && le b a

/-- The integer a double truncates to; for infinities and NaN a value outside every `int`, so that `(int)x` is
undefined there. -/
def truncate : F64 → Int
  | fin s k _ => units s (k / one)
  | inf true => -2 ^ 64
  | _ => 2 ^ 64

/-- Bits of the integer square root of `n`, from bit `b` down; `r` is the root so far. -/
def isqrt (n : Nat) : Nat → Nat → Nat
  | 0, r => r
  | b + 1, r => isqrt n b (if (r + 2 ^ b) * (r + 2 ^ b) ≤ n then r + 2 ^ b else r)

/-- `sqrt`: the root of `k` units is the root of `k * 2^1074` in units, which has at least 538 bits, so an inexact root
rounds like the whole root plus one half. -/
def sqrt : F64 → F64
  | nan => nan
  | inf s => if s then nan else inf false
  | fin s k _ =>
    if k = 0 then zero s
    else if s then nan
    else
      let n := k * one
      let r := isqrt n 1587 0
      if r * r = n then round false r 1 else round false (2 * r + 1) 2

def abs : F64 → F64
  | nan => nan
  | inf _ => inf false
  | fin _ k h => fin false k h

/-- `floor` (the sign of zero is that of the argument). -/
def floor : F64 → F64
  | fin false k _ => round false (k / one * one) 1
  | fin true k _ => round true ((k + (one - 1)) / one * one) 1
  | x => x

/-- `ceil`. -/
def ceil (x : F64) : F64 := neg (floor (neg x))

end F64

/-- The library functions whose results IEEE 754 leaves open: any functions on doubles. -/
class Libm where
  log : F64 → F64
  log10 : F64 → F64
  exp : F64 → F64
  sin : F64 → F64
  cos : F64 → F64
  tan : F64 → F64
  asin : F64 → F64
  acos : F64 → F64
  atan : F64 → F64
  sinh : F64 → F64
  cosh : F64 → F64
  tanh : F64 → F64
  pow : F64 → F64 → F64

instance [L : Libm] : CMath F64 where
  trunc := F64.truncate
  sqrt := F64.sqrt
  log := L.log
  log10 := L.log10
  exp := L.exp
  sin := L.sin
  cos := L.cos
  tan := L.tan
  asin := L.asin
  acos := L.acos
  atan := L.atan
  sinh := L.sinh
  cosh := L.cosh
  tanh := L.tanh
  floor := F64.floor
  ceil := F64.ceil
  fabs := F64.abs
  pow := L.pow
  infinity := .inf false

instance [Libm] : Num F64 where
  add := F64.add
  sub a b := F64.add a (F64.neg b)
  mul := F64.mul
  div := F64.div
  neg := F64.neg
  intCast := F64.ofInt
  lt a b := F64.lt a b = true
  le a b := F64.le a b = true
  beq := F64.eq
  decLt a b := inferInstanceAs (Decidable (F64.lt a b = true))
  decLe a b := inferInstanceAs (Decidable (F64.le a b = true))

end Verif
