/- dm, di, dx, adx, adxr: runs in any arithmetic (helper lemmas). -/
import Verif.Model.Direction
import Verif.Proof.Window
import Verif.Proof.TiBuf

namespace Verif
set_option linter.unusedSectionVars false
set_option linter.unusedSimpArgs false
variable {R : Type} [Num R]

/-- Directional movement of bar `k+1`. -/
def dirSig (x : Nat → HL R) (k : Nat) : R × R :=
  calcDirection ((x (k + 1)).high - (x k).high) ((x k).low - (x (k + 1)).low)
def dirUp (x : Nat → HL R) (k : Nat) : R := (dirSig x k).1
def dirDown (x : Nat → HL R) (k : Nat) : R := (dirSig x k).2

theorem rdDir_ok (x : Nat → HL R) (N k : Nat) (h : k + 1 < N) :
    rdDir (pre x N) ((k + 1 : Nat) : Int) = .ok (dirUp x k, dirDown x k) := by
  unfold rdDir
  run_simp [show ((k + 1 : Nat) : Int) - 1 = (k : Int) by omega]
  rfl

/-- Wilder's running sum: the first `p - 1` values added up, then decayed by (p-1)/p. -/
def wSum (p : Nat) (d : Nat → R) : Nat → R
  | 0 => sumTo d (p - 1)
  | j + 1 => wSum p d j * dmPer (p : Int) + d (j + (p - 1))

theorem dmInit_ok (x : Nat → HL R) (N p : Nat) (hp : 1 ≤ p) (hN : p ≤ N) :
    dmInit (pre x N) (p : Int) = .ok (wSum p (dirUp x) 0, wSum p (dirDown x) 0) := by
  unfold dmInit
  rw [show (1 : Int) = ((1 : Nat) : Int) by rfl,
    show ((c! 0 : R), (c! 0 : R)) = (fun i => (sumTo (dirUp x) (i - 1), sumTo (dirDown x) (i - 1))) 1 from rfl]
  rw [forUp_nat (fun i => (sumTo (dirUp x) (i - 1), sumTo (dirDown x) (i - 1))) hp]
  · rfl
  · intro i h1 hi
    obtain ⟨k, rfl⟩ : ∃ k, i = k + 1 := ⟨i - 1, by omega⟩
    rw [rdDir_ok x N k (by omega)]
    rfl

theorem dm_run (o : Nat → R) (p : Nat) (hc : toInt (o 0) = .ok (p : Int)) (hp : 1 ≤ p) :
    Computes dmBatch o (p - 1) (fun x j => ⟨wSum p (dirUp x) j, wSum p (dirDown x) j⟩) := by
  intro x N
  unfold dmBatch
  simp only [hc, bind_ok, dmStart, startM1_ok hc hp, length_pre, pure_eq]
  rw [if_neg (by omega)]
  split
  · rename_i h; simp [show N - (p - 1) = 0 by omega]
  rw [dmInit_ok x N p hp (by omega)]
  run_simp []
  refine forUp_bind p N (fun i => (wSum p (dirUp x) (i - p), wSum p (dirDown x) (i - p),
    pre (fun j => (⟨wSum p (dirUp x) j, wSum p (dirDown x) j⟩ : PlusMinus R)) (i + 1 - p))) rfl rfl ?_ (by omega) ?_ ?_
  · simp [pre_succ]
  · intro i h1 hi
    obtain ⟨k, rfl⟩ : ∃ k, i = k + (p - 1) + 1 := ⟨i - p, by omega⟩
    rw [rdDir_ok x N _ hi]
    simp only [show k + (p - 1) + 1 - p = k by omega, show k + (p - 1) + 1 + 1 - p = k + 1 by omega,
      show k + (p - 1) + 1 + 1 + 1 - p = k + 1 + 1 by omega]
    run_simp []
    rw [pre_snoc (m := k + 1 + 1) rfl (by rfl)]
    rfl
  · rw [finish_ok (by simp; omega), show N + 1 - p = N - (p - 1) by omega]

theorem dx_run (o : Nat → R) (p : Nat) (hc : toInt (o 0) = .ok (p : Int)) (hp : 1 ≤ p) :
    Computes dxBatch o (p - 1) (fun x j => dxOut (wSum p (dirUp x) j) (wSum p (dirDown x) j)) := by
  intro x N
  unfold dxBatch
  simp only [hc, bind_ok, dmStart, startM1_ok hc hp, length_pre, pure_eq]
  rw [if_neg (by omega)]
  split
  · rename_i h; simp [show N - (p - 1) = 0 by omega]
  rw [dmInit_ok x N p hp (by omega)]
  run_simp []
  refine forUp_bind p N (fun i => (wSum p (dirUp x) (i - p), wSum p (dirDown x) (i - p),
    pre (fun j => dxOut (wSum p (dirUp x) j) (wSum p (dirDown x) j)) (i + 1 - p))) rfl rfl ?_ (by omega) ?_ ?_
  · simp [pre_succ]
  · intro i h1 hi
    obtain ⟨k, rfl⟩ : ∃ k, i = k + (p - 1) + 1 := ⟨i - p, by omega⟩
    rw [rdDir_ok x N _ hi]
    simp only [show k + (p - 1) + 1 - p = k by omega, show k + (p - 1) + 1 + 1 - p = k + 1 by omega,
      show k + (p - 1) + 1 + 1 + 1 - p = k + 1 + 1 by omega]
    run_simp []
    rw [pre_snoc (m := k + 1 + 1) rfl (by rfl)]
    rfl
  · rw [finish_ok (by simp; omega), show N + 1 - p = N - (p - 1) by omega]

/-- Directional movement of HLC bars. -/
def hl (x : Nat → HLC R) (k : Nat) : HL R := ⟨(x k).high, (x k).low⟩
/-- True range of bar `k+1`. -/
def trSig1 (x : Nat → HLC R) (k : Nat) : R := trSig x (k + 1)

theorem rdTrDir_ok (x : Nat → HLC R) (N k : Nat) (h : k + 1 < N) :
    rdTrDir (pre x N) ((k + 1 : Nat) : Int) = .ok (trSig1 x k, dirUp (hl x) k, dirDown (hl x) k) := by
  unfold rdTrDir
  run_simp [show ((k + 1 : Nat) : Int) - 1 = (k : Int) by omega]
  rfl

def diVal (p : Nat) (x : Nat → HLC R) (j : Nat) : PlusMinus R :=
  ⟨diOut (wSum p (dirUp (hl x)) j) (wSum p (trSig1 x) j), diOut (wSum p (dirDown (hl x)) j) (wSum p (trSig1 x) j)⟩

theorem di_run (o : Nat → R) (p : Nat) (hc : toInt (o 0) = .ok (p : Int)) (hp : 1 ≤ p) :
    Computes diBatch o (p - 1) (diVal p) := by
  intro x N
  unfold diBatch
  simp only [hc, bind_ok, dmStart, startM1_ok hc hp, length_pre, pure_eq]
  rw [if_neg (by omega)]
  split
  · rename_i h; simp [show N - (p - 1) = 0 by omega]
  rw [show max 1 (min (p : Int) N) = p by omega]
  refine forUp_bind 1 p (fun i => (sumTo (trSig1 x) (i - 1), sumTo (dirUp (hl x)) (i - 1), sumTo (dirDown (hl x)) (i - 1)))
    rfl rfl rfl (by omega) ?_ ?_
  · intro i h1 hi
    obtain ⟨k, rfl⟩ : ∃ k, i = k + 1 := ⟨i - 1, by omega⟩
    rw [rdTrDir_ok x N k (by omega)]
    rfl
  rw [if_pos rfl]
  run_simp []
  refine forUp_bind p N (fun i => (wSum p (trSig1 x) (i - p), wSum p (dirUp (hl x)) (i - p), wSum p (dirDown (hl x)) (i - p),
    pre (diVal p x) (i + 1 - p))) rfl rfl ?_ (by omega) ?_ ?_
  · simp [pre_succ, wSum, diVal]
  · intro i h1 hi
    obtain ⟨k, rfl⟩ : ∃ k, i = k + (p - 1) + 1 := ⟨i - p, by omega⟩
    rw [rdTrDir_ok x N _ hi]
    simp only [show k + (p - 1) + 1 - p = k by omega, show k + (p - 1) + 1 + 1 - p = k + 1 by omega,
      show k + (p - 1) + 1 + 1 + 1 - p = k + 1 + 1 by omega]
    run_simp []
    rw [pre_snoc (m := k + 1 + 1) rfl (by rfl)]
    rfl
  · rw [finish_ok (by simp; omega), show N + 1 - p = N - (p - 1) by omega]

/-- dx as a signal. -/
def dxSig (p : Nat) (x : Nat → HL R) (j : Nat) : R := dxOut (wSum p (dirUp x) j) (wSum p (dirDown x) j)

/-- The accumulator of adx after the `j`-th dx. -/
def adxAcc (p : Nat) (x : Nat → HL R) : Nat → R
  | 0 => c! 0 + dxSig p x 0
  | j + 1 => if j + 1 < p then adxAcc p x j + dxSig p x (j + 1) else adxAcc p x j * dmPer (p : Int) + dxSig p x (j + 1)

def adxVal (p : Nat) (x : Nat → HL R) (j : Nat) : R := adxAcc p x (j + (p - 1)) * (c! 1 / ((p : Int) : R))

theorem startM1x_ok {p : Nat} (m : Nat) (hb : (p - 1) * m ≤ 2147483647) :
    i32 (((p - 1 : Nat) : Int) * m) = .ok (((p - 1) * m : Nat) : Int) := by
  rw [← Int.natCast_mul, i32_ok _ (by omega) (by omega)]

theorem adx_run (o : Nat → R) (p : Nat) (hc : toInt (o 0) = .ok (p : Int)) (hp : 2 ≤ p) (hb : (p - 1) * 2 ≤ 2147483647) :
    Computes adxBatch o ((p - 1) * 2) (adxVal p) := by
  intro x N
  have hs : adxStart o = .ok (((p - 1) * 2 : Nat) : Int) := by
    unfold adxStart
    rw [hc, bind_ok, startM1_ok hc (by omega), bind_ok]
    exact startM1x_ok 2 hb
  unfold adxBatch
  simp only [hc, bind_ok, hs, length_pre, pure_eq]
  rw [if_neg (by omega)]
  split
  · rename_i h; simp [show N - (p - 1) * 2 = 0 by omega]
  rw [dmInit_ok x N p (by omega) (by omega), bind_ok]
  refine forUp_bind p N (fun i => (wSum p (dirUp x) (i - p), wSum p (dirDown x) (i - p), adxAcc p x (i - p),
    pre (adxVal p x) (i - (p - 1) * 2))) rfl rfl ?_ (by omega) ?_ ?_
  · simp [adxAcc, show p - (p - 1) * 2 = 0 by omega, dxSig]
  · intro i h1 hi
    obtain ⟨k, rfl⟩ : ∃ k, i = k + (p - 1) + 1 := ⟨i - p, by omega⟩
    rw [rdDir_ok x N _ hi]
    simp only [show k + (p - 1) + 1 - p = k by omega, show k + (p - 1) + 1 + 1 - p = k + 1 by omega, bind_ok]
    have e : dxOut (wSum p (dirUp x) k * dmPer (p : Int) + dirUp x (k + (p - 1)))
      (wSum p (dirDown x) k * dmPer (p : Int) + dirDown x (k + (p - 1))) = dxSig p x (k + 1) := rfl
    rw [e]
    by_cases h2 : k + 1 < p - 1
    · have ea : adxAcc p x (k + 1) = adxAcc p x k + dxSig p x (k + 1) := by rw [adxAcc, if_pos (by omega)]
      rw [if_pos (by omega), ← ea, show k + (p - 1) + 1 - (p - 1) * 2 = 0 by omega,
        show k + (p - 1) + 1 + 1 - (p - 1) * 2 = 0 by omega]
      rfl
    · rw [if_neg (by omega)]
      by_cases h3 : k + 1 = p - 1
      · have ea : adxAcc p x (k + 1) = adxAcc p x k + dxSig p x (k + 1) := by rw [adxAcc, if_pos (by omega)]
        rw [if_pos (by omega), ← ea]
        run_simp []
        rw [pre_snoc (m := k + (p - 1) + 1 + 1 - (p - 1) * 2) (by omega)]
        · rfl
        · rw [adxVal, show k + (p - 1) + 1 - (p - 1) * 2 + (p - 1) = k + 1 by omega]
      · have ea : adxAcc p x (k + 1) = adxAcc p x k * dmPer (p : Int) + dxSig p x (k + 1) := by
          rw [adxAcc, if_neg (by omega)]
        rw [if_neg (by omega), ← ea]
        run_simp []
        rw [pre_snoc (m := k + (p - 1) + 1 + 1 - (p - 1) * 2) (by omega)]
        · rfl
        · rw [adxVal, show k + (p - 1) + 1 - (p - 1) * 2 + (p - 1) = k + 1 by omega]
  · run_simp []

theorem adxr_run (o : Nat → R) (p : Nat) (hc : toInt (o 0) = .ok (p : Int)) (hp : 2 ≤ p) (hb : (p - 1) * 3 ≤ 2147483647) :
    Computes adxrBatch o ((p - 1) * 3) (fun x j => c! 1 / c! 2 * (adxVal p x (j + (p - 1)) + adxVal p x j)) := by
  intro x N
  have hs : adxrStart o = .ok (((p - 1) * 3 : Nat) : Int) := by
    unfold adxrStart
    rw [hc, bind_ok, startM1_ok hc (by omega), bind_ok]
    exact startM1x_ok 3 hb
  unfold adxrBatch
  simp only [hc, bind_ok, hs, length_pre, pure_eq]
  rw [if_neg (by omega)]
  split
  · rename_i h; simp [show N - (p - 1) * 3 = 0 by omega]
  rw [dmInit_ok x N p (by omega) (by omega), bind_ok]
  refine forUp_bind p N (fun i => (wSum p (dirUp x) (i - p), wSum p (dirDown x) (i - p), adxAcc p x (i - p),
    TiBuf.qafter (adxVal p x) (p - 1) (i - (p - 1) * 2),
    pre (fun j => c! 1 / c! 2 * (adxVal p x (j + (p - 1)) + adxVal p x j)) (i - (p - 1) * 3))) rfl rfl ?_ (by omega) ?_ ?_
  · simp [adxAcc, show p - (p - 1) * 2 = 0 by omega, show p - (p - 1) * 3 = 0 by omega, dxSig, TiBuf.qafter,
      show (p : Int) - 1 = ((p - 1 : Nat) : Int) by omega]
  · intro i h1 hi
    obtain ⟨k, rfl⟩ : ∃ k, i = k + (p - 1) + 1 := ⟨i - p, by omega⟩
    rw [rdDir_ok x N _ hi]
    simp only [show k + (p - 1) + 1 - p = k by omega, show k + (p - 1) + 1 + 1 - p = k + 1 by omega, bind_ok]
    have e : dxOut (wSum p (dirUp x) k * dmPer (p : Int) + dirUp x (k + (p - 1)))
      (wSum p (dirDown x) k * dmPer (p : Int) + dirDown x (k + (p - 1))) = dxSig p x (k + 1) := rfl
    rw [e]
    by_cases h2 : k + 1 < p - 1
    · have ea : adxAcc p x (k + 1) = adxAcc p x k + dxSig p x (k + 1) := by rw [adxAcc, if_pos (by omega)]
      rw [if_pos (by omega), ← ea, show k + (p - 1) + 1 - (p - 1) * 2 = 0 by omega,
        show k + (p - 1) + 1 + 1 - (p - 1) * 2 = 0 by omega, show k + (p - 1) + 1 - (p - 1) * 3 = 0 by omega,
        show k + (p - 1) + 1 + 1 - (p - 1) * 3 = 0 by omega]
      rfl
    · rw [if_neg (by omega)]
      obtain ⟨t, rfl⟩ : ∃ t, k = t + (p - 2) := ⟨k - (p - 2), by omega⟩
      simp only [show t + (p - 2) + (p - 1) + 1 - (p - 1) * 2 = t by omega,
        show t + (p - 2) + (p - 1) + 1 + 1 - (p - 1) * 2 = t + 1 by omega]
      have ev : adxAcc p x (t + (p - 2) + 1) * (c! 1 / ((p : Int) : R)) = adxVal p x t := by
        rw [adxVal, show t + (p - 2) + 1 = t + (p - 1) by omega]
      by_cases h3 : t = 0
      · have ea : adxAcc p x (t + (p - 2) + 1) = adxAcc p x (t + (p - 2)) + dxSig p x (t + (p - 2) + 1) := by
          rw [adxAcc, if_pos (by omega)]
        rw [if_pos (by omega), ← ea, ev, TiBuf.qafter_qpush _ _ (by omega) _ _ rfl, bind_ok]
        simp only [show t + (p - 2) + (p - 1) + 1 - (p - 1) * 3 = 0 by omega,
          show t + (p - 2) + (p - 1) + 1 + 1 - (p - 1) * 3 = 0 by omega]
        rfl
      · have ea : adxAcc p x (t + (p - 2) + 1) = adxAcc p x (t + (p - 2)) * dmPer (p : Int) + dxSig p x (t + (p - 2) + 1) := by
          rw [adxAcc, if_neg (by omega)]
        rw [if_neg (by omega), ← ea, ev]
        by_cases h4 : p - 1 ≤ t
        · rw [if_pos (by omega), TiBuf.get_one (TiBuf.qafter_holds _ _ (by omega) t) (by omega) h4, bind_ok]
          run_simp []
          rw [TiBuf.qafter_qpush _ _ (by omega) _ _ rfl, bind_ok,
            pre_snoc (m := t + (p - 2) + (p - 1) + 1 + 1 - (p - 1) * 3) (by omega)]
          · rfl
          · simp only [show t + (p - 2) + (p - 1) + 1 - (p - 1) * 3 = t - (p - 1) by omega,
              show t - (p - 1) + (p - 1) = t by omega]
        · rw [if_neg (by omega), bind_ok, TiBuf.qafter_qpush _ _ (by omega) _ _ rfl, bind_ok]
          simp only [show t + (p - 2) + (p - 1) + 1 - (p - 1) * 3 = 0 by omega,
            show t + (p - 2) + (p - 1) + 1 + 1 - (p - 1) * 3 = 0 by omega]
          rfl
  · run_simp []

end Verif
