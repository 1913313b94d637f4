/- Linear regression family: runs in any arithmetic (helper lemmas). -/
import Verif.Model.Trend
import Verif.Proof.Window

namespace Verif
set_option linter.unusedSectionVars false
set_option linter.unusedSimpArgs false
variable {R : Type} [Num R]

/-- `x` after `k` rounds of the first loop. -/
def trX : Nat → R
  | 0 => c! 0
  | k + 1 => trX k + (((k : Int) + 1 : Int) : R)
/-- `x2` after `k` rounds of the first loop. -/
def trX2 : Nat → R
  | 0 => c! 0
  | k + 1 => trX2 k + ((((k : Int) + 1) * ((k : Int) + 1) : Int) : R)
/-- `xy`, `y` after `k` rounds of the first loop. -/
def trXY (x : Nat → R) : Nat → R × R
  | 0 => (c! 0, c! 0)
  | k + 1 => ((trXY x k).1 + x k * (((k : Int) + 1 : Int) : R), (trXY x k).2 + x k)

/-- `x`, `x2`, `bd` in the second loop. -/
def lrX (p : Nat) : R := trX (p - 1) + ((p : Int) : R)
def lrX2 (p : Nat) : R := trX2 (p - 1) + (((p : Int) * (p : Int) : Int) : R)
def lrBd (p : Nat) : R := c! 1 / (((p : Int) : R) * lrX2 p - lrX p * lrX p)

/-- `xy`, `y` before the `j`-th round of the second loop. -/
def lrS (x : Nat → R) (p : Nat) : Nat → R × R
  | 0 => trXY x (p - 1)
  | j + 1 =>
    let xy := (lrS x p j).1 + x (j + p - 1) * ((p : Int) : R)
    let y := (lrS x p j).2 + x (j + p - 1)
    (xy - y, y - x j)
/-- `xy`, `y` in the `j`-th round when `b` is computed. -/
def lrXY (x : Nat → R) (p j : Nat) : R := (lrS x p j).1 + x (j + p - 1) * ((p : Int) : R)
def lrY (x : Nat → R) (p j : Nat) : R := (lrS x p j).2 + x (j + p - 1)
/-- `b` and `a` in the `j`-th round. -/
def lrB (x : Nat → R) (p j : Nat) : R := (((p : Int) : R) * lrXY x p j - lrX p * lrY x p j) * lrBd p
def lrA (x : Nat → R) (p j : Nat) : R := (lrY x p j - lrB x p j * lrX p) * (c! 1 / ((p : Int) : R))

theorem sq_i32 (i n : Nat) (h : i + 1 ≤ n) (hn : n * n ≤ 2147483647) :
    i32 (((i : Int) + 1) * ((i : Int) + 1)) = .ok (((i : Int) + 1) * ((i : Int) + 1)) := by
  have h1 : (i + 1) * (i + 1) ≤ n * n := Nat.mul_le_mul h h
  refine i32_ok _ ?_ ?_
  · have : (0 : Int) ≤ ((i : Int) + 1) * ((i : Int) + 1) := by positivity
    omega
  · have : ((i : Int) + 1) * ((i : Int) + 1) = (((i + 1) * (i + 1) : Nat) : Int) := by push_cast; ring
    omega

theorem trendInit_ok (x : Nat → R) (N p : Nat) (hp : 1 ≤ p) (hpp : (p - 1) * (p - 1) ≤ 2147483647) (hN : p - 1 ≤ N) :
    trendInit (pre x N) p = .ok (trX (p - 1), trX2 (p - 1), trXY x (p - 1)) := by
  have : trendInit (pre x N) (p : Int) >>= Except.ok = .ok (trX (p - 1), trX2 (p - 1), trXY x (p - 1)) := by
    unfold trendInit
    refine forUp_bind 0 (p - 1) (fun k => (trX k, trX2 k, trXY x k)) rfl (by omega) rfl (by omega) ?_ rfl
    intro i _ hi
    simp only [sq_i32 i (p - 1) (by omega) hpp, bind_ok]
    run_simp []
    rfl
  simpa [bind, Except.bind] using (by revert this; cases trendInit (pre x N) (p : Int) <;> simp [bind, Except.bind])

theorem linearRegression_ok {τ : Type} (x : Nat → R) (N p : Nat) (hp : 1 ≤ p) (hpp : p * p ≤ 2147483647) (hN : p - 1 ≤ N)
    (t : τ) (final : Int → R → R → R → R → τ → List R → M (τ × List R)) (T : Nat → τ) (out : Nat → List R)
    (h0 : T 0 = t) (h0' : out 0 = [])
    (hf : ∀ j, j + p ≤ N → final ((j + p - 1 : Nat) : Int) (x (j + p - 1)) (lrX p) (lrY x p j) (lrB x p j) (T j) (out j) =
      .ok (T (j + 1), out (j + 1))) :
    linearRegression (pre x N) p t final = .ok (out (N - (p - 1))) := by
  unfold linearRegression
  have h1 : (p - 1) * (p - 1) ≤ 2147483647 := le_trans (Nat.mul_le_mul (Nat.sub_le _ _) (Nat.sub_le _ _)) hpp
  rw [trendInit_ok x N p hp h1 hN, bind_ok]
  have e : i32 ((p : Int) * (p : Int)) = .ok ((p : Int) * (p : Int)) := by
    refine i32_ok _ ?_ ?_ <;> · have : (p : Int) * (p : Int) = ((p * p : Nat) : Int) := by push_cast; ring
                                omega
  simp only [e, bind_ok, length_pre, pure_eq]
  refine forUp_bind (p - 1) N (fun i => ((lrS x p (i - (p - 1))).1, (lrS x p (i - (p - 1))).2, T (i - (p - 1)), out (i - (p - 1))))
    (by omega) rfl (by simp [h0, h0', lrS]) (by omega) ?_ rfl
  intro i hi1 hi
  obtain ⟨j, rfl⟩ : ∃ j, i = j + p - 1 := ⟨i - (p - 1), by omega⟩
  simp only [show j + p - 1 - (p - 1) = j by omega, show j + p - 1 + 1 - (p - 1) = j + 1 by omega]
  have := hf j (by omega)
  simp only [lrY, lrB, lrXY, lrX, lrX2, lrBd] at this
  rw [rd_pre_nat _ _ _ (by omega), bind_ok, this, bind_ok, rd_at j (by omega) (by omega), bind_ok]
  rfl

variable (o : Nat → R) (p : Nat) (hc : toInt (o 0) = .ok (p : Int)) (hp : 1 ≤ p) (hpp : p * p ≤ 2147483647)
include hc hp hpp

theorem trend_run (fc : Int → M Int) (f : Int) (hf : fc p = .ok f) :
    Computes (trendBatch fc) o (p - 1) (fun x j => lrA x p j + lrB x p j * (f : R)) := by
  intro x N
  unfold trendBatch
  simp only [hc, bind_ok, linregStart, startM1_ok hc hp, length_pre, pure_eq]
  rw [if_neg (by omega)]
  split
  · rename_i h; simp [show N - (p - 1) = 0 by omega]
  · rw [hf, bind_ok, linearRegression_ok x N p hp hpp (by omega) () _ (fun _ => ())
      (fun j => pre (fun j => lrA x p j + lrB x p j * (f : R)) j) rfl rfl, bind_ok]
    · run_simp []
    · intro j hj
      simp only [trendFinal]
      rw [wr_pre _ _ _ _ (by omega) (by rfl)]
      rfl

theorem linregslope_run : Computes linregslopeBatch o (p - 1) (fun x j => lrB x p j) := by
  intro x N
  unfold linregslopeBatch
  simp only [hc, bind_ok, linregStart, startM1_ok hc hp, length_pre, pure_eq]
  rw [if_neg (by omega)]
  split
  · rename_i h; simp [show N - (p - 1) = 0 by omega]
  · rw [linearRegression_ok x N p hp hpp (by omega) () _ (fun _ => ())
      (fun j => pre (fun j => lrB x p j) j) rfl rfl, bind_ok]
    · run_simp []
    · intro j hj
      simp only [slopeFinal]
      rw [wr_pre _ _ _ _ (by omega) (by rfl)]
      rfl

/-- The forecast in force after `j` rounds. -/
def foscT (x : Nat → R) (p : Nat) : Nat → R
  | 0 => c! 0
  | j + 1 => lrA x p j + lrB x p j * (((p : Int) + 1 : Int) : R)

def foscOut (v tsf : R) : R := if v - tsf == c! 0 then c! 0 else c! 100 * (v - tsf) / v

theorem fosc_run : Computes foscBatch o p (fun x j => foscOut (x (j + p)) (foscT x p (j + 1))) := by
  intro x N
  unfold foscBatch
  simp only [hc, bind_ok, foscStart, length_pre, pure_eq]
  rw [if_neg (by omega)]
  split
  · rename_i h; simp [show N - p = 0 by omega]
  · have hb := toInt_range hc
    rw [i32_ok _ (by omega) (by nlinarith), bind_ok, linearRegression_ok x N p hp hpp (by omega) (c! 0) _ (foscT x p)
      (fun j => pre (fun j => foscOut (x (j + p)) (foscT x p (j + 1))) (j - 1)) rfl rfl, bind_ok]
    · rw [show N - (p - 1) - 1 = N - p by omega]
      run_simp []
    · intro j hj
      simp only [foscFinal]
      cases j with
      | zero => rw [if_neg (by omega)]; rfl
      | succ j =>
        rw [if_pos (by omega), Nat.add_sub_cancel, wr_pre _ _ _ _ (by omega)
          (by simp only [foscOut]; rw [show j + 1 + p - 1 = j + p by omega])]
        rfl

end Verif
