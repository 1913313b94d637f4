/-
Model of `/repo/utils/ringbuf.hh`.
-/
import Verif.Core.Num

namespace Verif

/-- `ringbuf<N>` (lines 27-30, flat array) and `ringbuf<0>` (lines 125-128, heap array of `M` cells):
the cells and the position of the current one. Size `N`/`M` is the length of `buf`. -/
structure Ring (R : Type) where
  buf : List R
  pos : Nat

namespace Ring
variable {R : Type} [Num R]

/-- Construction: lines 29-30 (`buf[N] = {0}`, `pos = 0`), lines 130-137 (`resize`: `assert(M_ > 0)`,
zero-filled). Allocation failure is not modelled here. -/
def make (m : Int) : M (Ring R) :=
  if 0 < m then .ok ⟨List.replicate m.toNat (c! 0), 0⟩ else .error .assertFail

/-- `operator TI_REAL()`, lines 31 / 138: `buf[pos]`. -/
def cur (r : Ring R) : M R := rd r.buf r.pos

/-- `operator[](int i)`, lines 32-45 / 139-145. The two asserts are modelled (a failing assert is an
error outcome even in builds that would compile it away and read a wrong cell). -/
def get (r : Ring R) (i : Int) : M R :=
  if i < r.buf.length ∧ -1 < i then
    let q : Int := r.pos + i
    let q : Int := if q ≥ r.buf.length then q - r.buf.length else q
    rd r.buf q
  else .error .assertFail

/-- `step()`, lines 46-49 / 146-149. -/
def step (r : Ring R) : Ring R :=
  { r with pos := if r.pos = 0 then r.buf.length - 1 else r.pos - 1 }

/-- `operator=(TI_REAL x)`, lines 50-52 / 150-152: `buf[pos] = x`. -/
def set (r : Ring R) (v : R) : M (Ring R) :=
  if r.pos < r.buf.length then .ok { r with buf := r.buf.set r.pos v } else .error .oobWrite

/-- `std::max_element(reverse(b + hi), reverse(b + lo), cmp)`, converted back to a position:
scan `hi-1, hi-2, …, lo`, keep the first greatest. `best` is the position kept so far, `n` cells remain
below it, the next one being `j = lo + n - 1`. -/
def scanDown (cmp : R → R → Bool) (b : List R) (lo : Nat) : Nat → Nat → M Nat
  | 0, best => .ok best
  | n + 1, best => do
    let x ← rd b best
    let y ← rd b (lo + n : Nat)
    scanDown cmp b lo n (if cmp x y then lo + n else best)

/-- Position found by `std::max_element(reverse(b + hi), reverse(b + lo), cmp).base() - 1`
for a non-empty range `lo < hi` (an empty range would give the end iterator; dereferencing it is
undefined and reported as such). -/
def maxDown (cmp : R → R → Bool) (b : List R) (lo hi : Nat) : M Nat :=
  if lo < hi then scanDown cmp b lo (hi - 1 - lo) (hi - 1) else .error .oobRead

/-- `find_max<Cmp>(period)`, lines 54-76 / 157-179: the position of the extremum. -/
def findMax (cmp : R → R → Bool) (r : Ring R) (period : Int) : M Nat :=
  if period ≤ r.buf.length ∧ 0 < period then
    let m := r.buf.length
    let per := period.toNat
    if r.pos + per > m then do
      let part1 := m - r.pos
      let part2 := per - part1
      let it1 ← maxDown cmp r.buf r.pos (r.pos + part1)
      let it2 ← maxDown cmp r.buf 0 part2
      let x ← rd r.buf it1
      let y ← rd r.buf it2
      if !cmp x y then .ok it1 else .ok it2
    else maxDown cmp r.buf r.pos (r.pos + per)
  else .error .assertFail

/-- `iterator_to_age`, lines 83-86 / 184-187. -/
def age (r : Ring R) (it : Nat) : M Nat :=
  if it < r.buf.length then .ok ((it + (r.buf.length - r.pos)) % r.buf.length) else .error .assertFail

end Ring

/-- `std::less` / `std::greater` as used by `find_max`/`find_min` (lines 54, 77-79). -/
def cmpLess {R : Type} [Num R] (a b : R) : Bool := decide (a < b)
def cmpGreater {R : Type} [Num R] (a b : R) : Bool := decide (b < a)

/-- `ringbuf<2>`, lines 89-121: two cells swapped by `step`. -/
structure Ring2 (R : Type) where
  a1 : R
  a2 : R

namespace Ring2
variable {R : Type} [Num R]
/-- line 91 -/
def make : Ring2 R := ⟨c! 0, c! 0⟩
/-- line 92 -/
def cur (r : Ring2 R) : R := r.a1
/-- lines 93-102 -/
def get (r : Ring2 R) (i : Int) : M R :=
  if i < 2 ∧ -1 < i then .ok (if i = 0 then r.a1 else r.a2) else .error .assertFail
/-- line 103 -/
def step (r : Ring2 R) : Ring2 R := ⟨r.a2, r.a1⟩
/-- line 104 -/
def set (r : Ring2 R) (v : R) : Ring2 R := ⟨v, r.a2⟩
/-- lines 106-110 (the `period` argument is ignored): `true` = cell `a1`. -/
def findMax (r : Ring2 R) : Bool := decide (r.a2 ≤ r.a1)
/-- lines 111-114 -/
def findMin (r : Ring2 R) : Bool := decide (r.a1 ≤ r.a2)
end Ring2

end Verif
