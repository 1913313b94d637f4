/-
C09 — the element-wise functions: one output per input, the function of that input, for every input and in any
arithmetic (the `<cmath>` functions themselves are parameters).
-/
import Verif.Proof.Simple
import Verif.Core.RatInst

namespace Verif
section Any
variable {R : Type} [Num R]

theorem abs_value (o : Nat → R) :
    Computes absBatch o 0 (fun x j => CMath.fabs (x j)) ∧ Contract start0 absBatch o 0 :=
  ⟨simple1_run _ o, (simple1_run _ o).contract rfl⟩

theorem acos_value (o : Nat → R) :
    Computes acosBatch o 0 (fun x j => CMath.acos (x j)) ∧ Contract start0 acosBatch o 0 :=
  ⟨simple1_run _ o, (simple1_run _ o).contract rfl⟩

theorem asin_value (o : Nat → R) :
    Computes asinBatch o 0 (fun x j => CMath.asin (x j)) ∧ Contract start0 asinBatch o 0 :=
  ⟨simple1_run _ o, (simple1_run _ o).contract rfl⟩

theorem atan_value (o : Nat → R) :
    Computes atanBatch o 0 (fun x j => CMath.atan (x j)) ∧ Contract start0 atanBatch o 0 :=
  ⟨simple1_run _ o, (simple1_run _ o).contract rfl⟩

theorem ceil_value (o : Nat → R) :
    Computes ceilBatch o 0 (fun x j => CMath.ceil (x j)) ∧ Contract start0 ceilBatch o 0 :=
  ⟨simple1_run _ o, (simple1_run _ o).contract rfl⟩

theorem cos_value (o : Nat → R) :
    Computes cosBatch o 0 (fun x j => CMath.cos (x j)) ∧ Contract start0 cosBatch o 0 :=
  ⟨simple1_run _ o, (simple1_run _ o).contract rfl⟩

theorem cosh_value (o : Nat → R) :
    Computes coshBatch o 0 (fun x j => CMath.cosh (x j)) ∧ Contract start0 coshBatch o 0 :=
  ⟨simple1_run _ o, (simple1_run _ o).contract rfl⟩

theorem exp_value (o : Nat → R) :
    Computes expBatch o 0 (fun x j => CMath.exp (x j)) ∧ Contract start0 expBatch o 0 :=
  ⟨simple1_run _ o, (simple1_run _ o).contract rfl⟩

theorem floor_value (o : Nat → R) :
    Computes floorBatch o 0 (fun x j => CMath.floor (x j)) ∧ Contract start0 floorBatch o 0 :=
  ⟨simple1_run _ o, (simple1_run _ o).contract rfl⟩

theorem ln_value (o : Nat → R) :
    Computes lnBatch o 0 (fun x j => CMath.log (x j)) ∧ Contract start0 lnBatch o 0 :=
  ⟨simple1_run _ o, (simple1_run _ o).contract rfl⟩

theorem log10_value (o : Nat → R) :
    Computes log10Batch o 0 (fun x j => CMath.log10 (x j)) ∧ Contract start0 log10Batch o 0 :=
  ⟨simple1_run _ o, (simple1_run _ o).contract rfl⟩

theorem round_value (o : Nat → R) :
    Computes roundBatch o 0 (fun x j => CMath.floor (x j + c! 1 / c! 2)) ∧ Contract start0 roundBatch o 0 :=
  ⟨simple1_run _ o, (simple1_run _ o).contract rfl⟩

theorem sin_value (o : Nat → R) :
    Computes sinBatch o 0 (fun x j => CMath.sin (x j)) ∧ Contract start0 sinBatch o 0 :=
  ⟨simple1_run _ o, (simple1_run _ o).contract rfl⟩

theorem sinh_value (o : Nat → R) :
    Computes sinhBatch o 0 (fun x j => CMath.sinh (x j)) ∧ Contract start0 sinhBatch o 0 :=
  ⟨simple1_run _ o, (simple1_run _ o).contract rfl⟩

theorem sqrt_value (o : Nat → R) :
    Computes sqrtBatch o 0 (fun x j => CMath.sqrt (x j)) ∧ Contract start0 sqrtBatch o 0 :=
  ⟨simple1_run _ o, (simple1_run _ o).contract rfl⟩

theorem tan_value (o : Nat → R) :
    Computes tanBatch o 0 (fun x j => CMath.tan (x j)) ∧ Contract start0 tanBatch o 0 :=
  ⟨simple1_run _ o, (simple1_run _ o).contract rfl⟩

theorem tanh_value (o : Nat → R) :
    Computes tanhBatch o 0 (fun x j => CMath.tanh (x j)) ∧ Contract start0 tanhBatch o 0 :=
  ⟨simple1_run _ o, (simple1_run _ o).contract rfl⟩

theorem todeg_value (o : Nat → R) :
    Computes todegBatch o 0 (fun x j => x j * (c! 180 / mPi)) ∧ Contract start0 todegBatch o 0 :=
  ⟨simple1_run _ o, (simple1_run _ o).contract rfl⟩

theorem torad_value (o : Nat → R) :
    Computes toradBatch o 0 (fun x j => x j * (mPi / c! 180)) ∧ Contract start0 toradBatch o 0 :=
  ⟨simple1_run _ o, (simple1_run _ o).contract rfl⟩

theorem add_value (o : Nat → R) :
    Computes addBatch o 0 (fun x j => (x j).a + (x j).b) ∧ Contract start0 addBatch o 0 :=
  ⟨simple2_run _ o, (simple2_run _ o).contract rfl⟩

theorem sub_value (o : Nat → R) :
    Computes subBatch o 0 (fun x j => (x j).a - (x j).b) ∧ Contract start0 subBatch o 0 :=
  ⟨simple2_run _ o, (simple2_run _ o).contract rfl⟩

theorem mul_value (o : Nat → R) :
    Computes mulBatch o 0 (fun x j => (x j).a * (x j).b) ∧ Contract start0 mulBatch o 0 :=
  ⟨simple2_run _ o, (simple2_run _ o).contract rfl⟩

theorem div_value (o : Nat → R) :
    Computes divBatch o 0 (fun x j => (x j).a / (x j).b) ∧ Contract start0 divBatch o 0 :=
  ⟨simple2_run _ o, (simple2_run _ o).contract rfl⟩

/-- `trunc` on inputs that fit an `int`: the truncated values. -/
theorem trunc_value_partial (o : Nat → R) (x : Nat → R) (t : Nat → Int) (N : Nat)
    (h : ∀ i, i < N → toInt (x i) = .ok (t i)) :
    truncBatch o (pre x N) = .ok (.okay, pre (fun i => ((t i : Int) : R)) N) := by
  unfold truncBatch simple1
  refine forUp_bind 0 N (fun i => pre (fun i => ((t i : Int) : R)) i) rfl (by simp) rfl (by omega) ?_ rfl
  intro i _ hi
  run_simp [h i hi]
  rw [pre_snoc rfl rfl]

/-- `trunc` violates C09 outside the range of `int`: the first such input is undefined behaviour. -/
theorem trunc_out_of_range (o : Nat → R) (x : Nat → R) (t : Nat → Int) (N k : Nat) (hk : k < N)
    (h : ∀ i, i < k → toInt (x i) = .ok (t i))
    (hbad : 2147483647 < CMath.trunc (x k) ∨ CMath.trunc (x k) < -2147483648) :
    truncBatch o (pre x N) = .error .intRange := by
  refine simple1_error _ o x N k hk (fun i => ((t i : Int) : R)) _ ?_ ?_
  · intro i hi; simp [h i hi]
  · have : toInt (x k) = .error .intRange := by
      unfold toInt i32; rw [if_neg (by omega)]
    simp [this]

end Any

/-- The negation of C09 for `trunc`, on a concrete series: 3e9 does not fit an `int`. -/
theorem trunc_violates : truncBatch (opts []) [1, 3000000000] = .error .intRange := by decide +kernel

/- Concrete runs. -/
example : absBatch (opts []) [-1, 2, -3/2] = .ok (.okay, [1, 2, 3/2]) := by decide +kernel
example : addBatch (opts []) [⟨1, 2⟩, ⟨3, 4⟩] = .ok (.okay, [3, 7]) := by decide +kernel
example : divBatch (opts []) [⟨1, 2⟩, ⟨3, 4⟩] = .ok (.okay, [1/2, 3/4]) := by decide +kernel
example : truncBatch (opts []) [7/2, -7/2] = .ok (.okay, [3, -3]) := by decide +kernel
example : ∀ i, i < 2 → toInt ((fun i => if i = 0 then 7/2 else -7/2 : Nat → Rat) i)
    = .ok ((fun i => if i = 0 then 3 else -3 : Nat → Int) i) := by decide +kernel

end Verif
