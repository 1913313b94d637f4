/-
The rationals as a number type: used for concrete instances (non-vacuity examples and counterexamples that the
kernel evaluates).  `trunc` is the real truncation; `fabs`, `floor`, `ceil` are the real functions; the
transcendental functions are stubs and no example relies on their value.
-/
import Verif.Core.Laws
import Mathlib.Algebra.Order.Ring.Rat
import Mathlib.Algebra.Field.Rat
import Mathlib.Data.Rat.Floor
import Mathlib.Tactic.Linarith

namespace Verif

instance : CMath Rat where
  trunc q := Int.tdiv q.num q.den
  sqrt q := ((Nat.sqrt q.num.toNat : Nat) : Rat) / ((Nat.sqrt q.den : Nat) : Rat)
  log _ := 0
  log10 _ := 0
  exp _ := 1
  sin _ := 0
  cos _ := 1
  tan _ := 0
  asin _ := 0
  acos _ := 0
  atan _ := 0
  sinh _ := 0
  cosh _ := 1
  tanh _ := 0
  floor q := (q.floor : Int)
  ceil q := (q.ceil : Int)
  fabs q := if q < 0 then -q else q
  pow q e := if e.den = 1 then q ^ e.num.toNat else q
  infinity := 0

instance : LawfulTrunc Rat where
  trunc_intCast n := by simp [CMath.trunc]

instance : LawfulRound Rat where
  trunc_nonneg x h := by
    have e : CMath.trunc x = ⌊x⌋ := by
      show Int.tdiv x.num x.den = _
      rw [Int.tdiv_eq_ediv_of_nonneg (Rat.num_nonneg.2 h), ← Rat.floor_def']
    rw [e]; exact ⟨Int.floor_le x, Int.lt_floor_add_one x⟩
  trunc_neg x h := by
    have e : CMath.trunc x = ⌈x⌉ := by
      show Int.tdiv x.num x.den = _
      have h2 : ⌊-x⌋ = (-x).num / (-x).den := Rat.floor_def'
      rw [← neg_neg ⌈x⌉, ← Int.floor_neg, h2, ← Int.tdiv_eq_ediv_of_nonneg (Rat.num_nonneg.2 (by linarith)),
        ← Int.neg_tdiv]
      simp
    rw [e]; exact ⟨by linarith [Int.ceil_lt_add_one x], Int.le_ceil x⟩

instance : LawfulCeil Rat where
  ceil_spec x := ⟨⌈x⌉, by
    show ((x.ceil : Int) : Rat) = _
    rw [Rat.ceil_eq_neg_floor_neg]; rfl, by linarith [Int.ceil_lt_add_one x], Int.le_ceil x⟩

instance : LawfulAbs Rat where
  fabs_eq x := by
    simp only [CMath.fabs]
    split
    · rename_i h; rw [abs_of_neg h]
    · rename_i h; rw [abs_of_nonneg (not_lt.1 h)]

instance : LawfulPow Rat where
  pow_two x := by simp [CMath.pow]

instance {α : Type} [DecidableEq α] : DecidableEq (M α) := inferInstanceAs (DecidableEq (Except UB α))

/-- An options array for examples: the listed values, then zeros. -/
def opts (l : List Rat) : Nat → Rat := fun i => l.getD i 0

/-- `(int)options[i]` of an example. -/
theorem toInt_rat (q : Rat) (p : Int) (h : Int.tdiv q.num q.den = p) (h1 : -2147483648 ≤ p)
    (h2 : p ≤ 2147483647) : toInt q = .ok p := by
  simp [toInt, i32, CMath.trunc, h, h1, h2]

end Verif
