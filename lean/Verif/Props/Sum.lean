/-
C11 — `ti_sum` and `ti_sma`: rolling sum and simple moving average.
-/
import Verif.Proof.Sum
import Verif.Core.RatInst

namespace Verif
open Spec

section Any
variable {R : Type} [Num R]

/-- Any arithmetic (NaN, infinities included): no undefined behaviour, exactly `size - (period-1)` values,
causal. -/
theorem sum_contract (o : Nat → R) (p : Nat) (hc : toInt (o 0) = .ok (p : Int)) (hp : 1 ≤ p) :
    Contract sumStart sumBatch o (p - 1) :=
  (sumBatch_run o p hc hp).contract (by rw [sumStart_ok hc]; congr 1; omega)

theorem sum_refuses (o : Nat → R) (p : Int) (hc : toInt (o 0) = .ok p) (hp : p < 1) :
    Refuses sumBatch o := by
  intro xs; simp [sumBatch, hc, hp]

theorem sma_contract (o : Nat → R) (p : Nat) (hc : toInt (o 0) = .ok (p : Int)) (hp : 1 ≤ p) :
    Contract smaStart smaBatch o (p - 1) :=
  (smaBatch_run o p hc hp).contract (by rw [smaStart_ok hc]; congr 1; omega)

theorem sma_refuses (o : Nat → R) (p : Int) (hc : toInt (o 0) = .ok p) (hp : p < 1) :
    Refuses smaBatch o ∧ (sma (R := R)).NewRefuses o := by
  constructor
  · intro xs; simp [smaBatch, hc, hp]
  · simp [Indicator.NewRefuses, sma, smaNew, hc, hp]

/-- Any options, any arithmetic: a session depends only on the concatenation of its chunks. -/
theorem sma_chunks (o : Nat → R) : (sma (R := R)).ChunkInvariant o :=
  chunkInvariant_of smaPhases_ordered o

end Any

section Field
variable {R : Type} [Field R] [LinearOrder R] [IsStrictOrderedRing R] [CMath R]

/-- Output `j` of `ti_sum` is the sum of the `period` inputs `j, …, j+period-1`. -/
theorem sum_value (o : Nat → R) (p : Nat) (hc : toInt (o 0) = .ok (p : Int)) (hp : 1 ≤ p) :
    Computes sumBatch o (p - 1) (winSum p) :=
  (sumBatch_run o p hc hp).congr fun x j => slide_eq x p j

/-- Output `j` of `ti_sma` is the mean of the `period` inputs `j, …, j+period-1`. -/
theorem sma_value (o : Nat → R) (p : Nat) (hc : toInt (o 0) = .ok (p : Int)) (hp : 1 ≤ p) :
    Computes smaBatch o (p - 1) (winMean p) :=
  (smaBatch_run o p hc hp).congr fun x j => by
    simp [slide_eq, winMean, div_eq_mul_inv]

/-- Every chunking of every input through the stream gives the means as well. -/
theorem sma_stream_value (o : Nat → R) (p : Nat) (hc : toInt (o 0) = .ok (p : Int)) (hp : 1 ≤ p) :
    (sma (R := R)).StreamComputes o (p - 1) (winMean p) :=
  StreamComputes.congr (sma_stream_run o p hc hp) fun x j => by
    simp [slideS_eq x p j hp, winMean, div_eq_mul_inv]

/-- Stream and batch agree for every chunking (exact arithmetic: the code adds in a different order). -/
theorem sma_stream_eq_batch (o : Nat → R) (p : Nat) (hc : toInt (o 0) = .ok (p : Int)) (hp : 1 ≤ p) :
    (sma (R := R)).StreamEqBatch o (p - 1) :=
  streamEqBatch_of (sma_value o p hc hp) (sma_stream_value o p hc hp)

end Field

/- The hypotheses are met, e.g. by period 3 over the rationals; and the statements speak about real runs. -/
example : toInt (opts [3] 0) = .ok ((3 : Nat) : Int) ∧ 1 ≤ 3 := by decide +kernel
example : sumBatch (opts [3]) [1, 2, 3, 5] = .ok (.okay, [6, 10]) := by decide +kernel
example : smaBatch (opts [3]) [1, 2, 3, 5] = .ok (.okay, [2, 10/3]) := by decide +kernel
example : (sma (R := Rat)).session (opts [3]) [[1, 2], [], [3, 5]] = .ok (.okay, 2, [2, 10/3]) := by
  decide +kernel
example : toInt (opts [0] 0) = .ok 0 ∧ (0 : Int) < 1 := by decide +kernel

end Verif
