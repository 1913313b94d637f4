/- More streams in binary64: gf1 reproduces the batch result bit for bit; pc, ichi, smi and mhlma do so only without NaN, emsd not
even then. -/
import Verif.Proof.BinaryExact
import Verif.Proof.Filters
import Verif.Core.Eval
import Verif.Spec.Witness
import Verif.Spec.DoubleData
import Verif.Model.Chan
import Verif.Model.Trail
import Verif.Model.Average

namespace Verif
open F64
set_option linter.unusedSectionVars false

section
variable [Libm]

attribute [local irreducible] F64.ofInt F64.round F64.one F64.limit

theorem gf1_coefs (q : Nat) (h1 : 1 ≤ q) (h2 : q ≤ 20) : (coef gf1B0 q : F64) + coef gf1A1 q = ((1 : Int) : F64) := by
  have h : ∀ q ∈ List.range 21, q = 0 ∨ (coef gf1B0 q : F64) + coef gf1A1 q = ((1 : Int) : F64) := by kernel_decide
  exact (h q (List.mem_range.2 (by omega))).resolve_left (by omega)

theorem one_div_one : ((1 : Int) : F64) / ((1 : Int) : F64) = ((1 : Int) : F64) := by kernel_decide

/-- Dividing by 1 and multiplying by 1 is the same for every double. -/
theorem div_one_eq (a : F64) : a / ((1 : Int) : F64) = a * ((1 : Int) : F64) := by
  rw [int_eq 1 (by unfold Small; omega)]
  change F64.div a _ = F64.mul a _
  have h2 : (1 : Int).natAbs * one = one := by rw [show (1 : Int).natAbs = 1 from rfl, Nat.one_mul]
  have h1 : (1 : Int).natAbs * one ≠ 0 := by rw [h2]; exact Nat.ne_of_gt F64.one_pos
  cases a with
  | nan => simp only [F64.div, F64.mul]
  | inf s => simp only [intD, F64.div, F64.mul]; rw [if_neg h1]
  | fin s k h => simp only [intD, F64.div, F64.mul]; rw [if_neg h1, h2]

theorem gf1_same (B A : F64) (h : B + A = ((1 : Int) : F64)) : gf1F B A = gf1G B A := by
  funext v xs ys
  unfold gf1F gf1G
  rw [h, one_div_one, div_one_eq]

/-- gf1: the batch call divides by the sum of the coefficients, the stream multiplies by its reciprocal; in doubles that sum is exactly 1. -/
theorem gf1_stream_double (o : Nat → F64) (q : Nat) (h1 : 1 ≤ q) (h2 : q ≤ 20) (hc : toInt (o 0) = .ok ((2 * q : Nat) : Int)) :
    (gf1 (R := F64)).StreamEqBatch o 0 := by
  have hs := gf1_stream_run o q h1 h2 hc
  rw [← gf1_same _ _ (gf1_coefs q h1 h2)] at hs
  exact streamEqBatch_of (gf1_run o q h1 h2 hc) hs

example : (gf1 (R := F64)).StreamEqBatch (opt1 6) 0 := gf1_stream_double _ 3 (by decide) (by decide) (by kernel_decide)

/-- Not a number. -/
def nanD : F64 := c! 0 / c! 0

/-- pc(2) of three bars, one of whose highs is not a number. -/
theorem pc_stream_double_violates : (pc (R := F64)).StreamDiffers (opt1 2) [⟨c! 1, c! 0⟩, ⟨nanD, c! 0⟩, ⟨c! 1, c! 0⟩] := by kernel_decide

/-- ichi(1, 2, 2) of four such bars. -/
theorem ichi_stream_double_violates :
    (ichi (R := F64)).StreamDiffers (optsD [1, 2, 2]) [⟨c! 1, c! 0⟩, ⟨nanD, c! 0⟩, ⟨c! 2, c! 0⟩, ⟨nanD, c! 0⟩] := by kernel_decide

/-- mhlma(2, 2) of four prices. -/
theorem mhlma_stream_double_violates : (mhlma (R := F64)).StreamDiffers (optsD [2, 2]) [c! 1, nanD, c! 2, c! 2] := by kernel_decide

/-- smi(2, 1, 1) of four bars. -/
theorem smi_stream_double_violates :
    (smi (R := F64)).StreamDiffers (optsD [2, 1, 1]) [⟨c! 2, c! 0, c! 1⟩, ⟨nanD, c! 0, c! 1⟩, ⟨c! 2, c! 0, c! 1⟩, ⟨c! 2, c! 0, c! 1⟩] := by kernel_decide

end

/-- A C library whose `pow` squares exactly rounded; the other functions do not matter here. -/
@[reducible] def squaring : Libm where
  log x := x
  log10 x := x
  exp x := x
  sin x := x
  cos x := x
  tan x := x
  asin x := x
  acos x := x
  atan x := x
  sinh x := x
  cosh x := x
  tanh x := x
  pow x _ := F64.mul x x

set_option maxRecDepth 100000 in
attribute [local instance] squaring in
/-- emsd(3, 1) of 0.9, 0.9, 0.7, with a `pow` that squares: the batch call divides by the period, the stream multiplies by its reciprocal. -/
theorem emsd_stream_double_violates : (emsd (R := F64)).StreamDiffers (optsD [3, 1]) (tenths [9, 9, 7]) := by kernel_decide

end Verif
