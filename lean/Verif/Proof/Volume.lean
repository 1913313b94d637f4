/- obv, nvi, pvi, ad, adosc, wad, kvo, mfi, cmf, vosc, ao, qstick, dpo: runs in any arithmetic (helper lemmas). -/
import Verif.Model.Volume
import Verif.Proof.Window
import Verif.Proof.TiBuf

namespace Verif
set_option linter.unusedSectionVars false
set_option linter.unusedSimpArgs false
variable {R : Type} [Num R]

def obvRec (x : Nat → CV R) : Nat → R
  | 0 => c! 0
  | n + 1 => obvStep (obvRec x n) (x n).close (x (n + 1)).close (x (n + 1)).volume

theorem obv_run (o : Nat → R) : Computes obvBatch o 0 obvRec := by
  intro x N
  unfold obvBatch
  simp only [length_pre, pure_eq]
  rcases Nat.eq_zero_or_pos N with rfl | hN
  · rfl
  rw [show min (1 : Int) N = 1 by omega]
  refine forUp_bind 0 1 (fun i => if i = 0 then (none, []) else (some (x 0).close, pre (obvRec x) 1)) rfl rfl rfl
    (by omega) ?_ ?_
  · intro i _ hi
    obtain rfl : i = 0 := by omega
    simp only [if_true]
    rw [rd_pre_nat _ _ _ (by omega)]
    run_simp []
    rfl
  simp only [if_neg (show ¬ 1 = 0 by omega)]
  refine forUp_bind 1 N (fun i => (some (x (i - 1)).close, obvRec x (i - 1), pre (obvRec x) i)) rfl rfl rfl
    (by omega) ?_ ?_
  · intro i h1 hi
    obtain ⟨k, rfl⟩ : ∃ k, i = k + 1 := ⟨i - 1, by omega⟩
    run_simp [getVar, Nat.add_sub_cancel]
    rw [pre_snoc rfl (by rfl)]
    rfl
  · rfl

def nviRec (x : Nat → CV R) : Nat → R
  | 0 => c! 1000
  | n + 1 => if (x (n + 1)).volume < (x n).volume then
      nviRec x n + ((x (n + 1)).close - (x n).close) / (x n).close * nviRec x n else nviRec x n

theorem nvi_run (o : Nat → R) : Computes nviBatch o 0 nviRec := by
  intro x N
  unfold nviBatch
  simp only [length_pre, pure_eq, obvStart, bind_ok]
  split
  · rename_i h; simp [show N = 0 by omega]
  run_simp []
  refine forUp_bind 1 N (fun i => (nviRec x (i - 1), pre (nviRec x) i)) rfl rfl rfl (by omega) ?_ ?_
  · intro i h1 hi
    obtain ⟨k, rfl⟩ : ∃ k, i = k + 1 := ⟨i - 1, by omega⟩
    run_simp [Nat.add_sub_cancel, show ((k + 1 : Nat) : Int) - 1 = (k : Int) by omega]
    rw [pre_snoc rfl (by rfl)]
    rfl
  · run_simp []; rfl

def pviRec (x : Nat → CV R) : Nat → R
  | 0 => c! 1000
  | n + 1 => if (x n).volume < (x (n + 1)).volume ∧ c! 0 < (x n).volume then
      pviRec x n + ((x (n + 1)).close - (x n).close) / (x n).close * pviRec x n else pviRec x n

theorem pvi_run (o : Nat → R) : Computes pviBatch o 0 pviRec := by
  intro x N
  unfold pviBatch
  simp only [length_pre, pure_eq, obvStart, bind_ok]
  split
  · rename_i h; simp [show N = 0 by omega]
  run_simp []
  refine forUp_bind 1 N (fun i => (pviRec x (i - 1), pre (pviRec x) i)) rfl rfl rfl (by omega) ?_ ?_
  · intro i h1 hi
    obtain ⟨k, rfl⟩ : ∃ k, i = k + 1 := ⟨i - 1, by omega⟩
    run_simp [Nat.add_sub_cancel, show ((k + 1 : Nat) : Int) - 1 = (k : Int) by omega]
    rw [pre_snoc rfl (by rfl)]
    rfl
  · run_simp []; rfl

/-- The sum of ad before bar `n`. -/
def adRec (x : Nat → HLCV R) : Nat → R
  | 0 => c! 0
  | n + 1 => adStep (adRec x n) (x n)

theorem ad_run (o : Nat → R) : Computes adBatch o 0 (fun x j => adRec x (j + 1)) := by
  intro x N
  unfold adBatch
  simp only [length_pre, pure_eq]
  refine forUp_bind 0 N (fun i => (adRec x i, pre (fun j => adRec x (j + 1)) i)) rfl rfl rfl (by omega) ?_ ?_
  · intro i h1 hi
    run_simp []
    rw [pre_snoc rfl (by rfl)]
    rfl
  · rfl

theorem adosc_run (o : Nat → R) (s p : Nat) (hs : toInt (o 0) = .ok (s : Int)) (hc : toInt (o 1) = .ok (p : Int))
    (h1 : 1 ≤ s) (h2 : s ≤ p) : Computes adoscBatch o (p - 1) (fun x j =>
      emaRec (emaPer (s : Int)) (fun j => adRec x (j + 1)) (j + (p - 1))
        - emaRec (emaPer (p : Int)) (fun j => adRec x (j + 1)) (j + (p - 1))) := by
  intro x N
  unfold adoscBatch
  simp only [hs, hc, bind_ok, adoscStart, startM1_ok hc (show 1 ≤ p by omega), length_pre, pure_eq]
  rw [if_neg (by omega), if_neg (by omega)]
  split
  · rename_i h; simp [show N - (p - 1) = 0 by omega]
  refine forUp_bind 0 N (fun i => (adRec x i,
      (if i = 0 then c! 0 else emaRec (emaPer (s : Int)) (fun j => adRec x (j + 1)) (i - 1)),
      (if i = 0 then c! 0 else emaRec (emaPer (p : Int)) (fun j => adRec x (j + 1)) (i - 1)),
      pre (fun j => emaRec (emaPer (s : Int)) (fun j => adRec x (j + 1)) (j + (p - 1))
        - emaRec (emaPer (p : Int)) (fun j => adRec x (j + 1)) (j + (p - 1))) (i - (p - 1)))) rfl rfl
    (by simp [adRec]) (by omega) ?_ ?_
  · intro i _ hi
    have e : ∀ a : R, (if (i : Int) = 0 then adRec x (i + 1) else
        (adRec x (i + 1) - (if i = 0 then c! 0 else emaRec a (fun j => adRec x (j + 1)) (i - 1))) * a +
          (if i = 0 then c! 0 else emaRec a (fun j => adRec x (j + 1)) (i - 1)))
        = emaRec a (fun j => adRec x (j + 1)) i := by
      intro a
      cases i with
      | zero => simp [emaRec]
      | succ i => rw [if_neg (by omega)]; simp [emaRec]
    rw [rd_pre_nat _ _ _ hi]
    simp only [bind_ok]
    rw [show adStep (adRec x i) (x i) = adRec x (i + 1) from rfl, e, e]
    simp only [Nat.add_sub_cancel, if_neg (show ¬ i + 1 = 0 by omega)]
    by_cases hp : p - 1 ≤ i
    · rw [if_pos (by omega)]
      run_simp []
      rw [pre_snoc (m := i + 1 - (p - 1)) (by omega)]
      simp only [show i - (p - 1) + (p - 1) = i by omega]
    · rw [if_neg (by omega)]
      simp only [show i - (p - 1) = 0 by omega, show i + 1 - (p - 1) = 0 by omega]
  · run_simp []

def wadRec (x : Nat → HLC R) : Nat → R
  | 0 => c! 0
  | n + 1 => wadStep (wadRec x n) (x n).close (x (n + 1))

theorem wad_run (o : Nat → R) : Computes wadBatch o 1 (fun x j => wadRec x (j + 1)) := by
  intro x N
  unfold wadBatch
  simp only [length_pre, pure_eq, wadStart, bind_ok]
  split
  · rename_i h; simp [show N - 1 = 0 by omega]
  rw [rd_zero _ _ (by omega), bind_ok]
  refine forUp_bind 1 N (fun i => (wadRec x (i - 1), (x (i - 1)).close, pre (fun j => wadRec x (j + 1)) (i - 1)))
    rfl rfl rfl (by omega) ?_ ?_
  · intro i h1 hi
    obtain ⟨k, rfl⟩ : ∃ k, i = k + 1 := ⟨i - 1, by omega⟩
    run_simp [Nat.add_sub_cancel]
    rw [pre_snoc (m := k + 1) rfl (by rfl)]
    rfl
  · run_simp []

/-- trend and cm of kvo after bar `n`. -/
def kvoTC (x : Nat → HLCV R) : Nat → Int × R
  | 0 => (-1, c! 0)
  | n + 1 =>
    let tc := kvoTrend ((x (n + 1)).high + (x (n + 1)).low + (x (n + 1)).close)
      ((x n).high + (x n).low + (x n).close) (x n) (kvoTC x n)
    (tc.1, tc.2 + ((x (n + 1)).high - (x (n + 1)).low))

/-- Volume force at bar `n + 1`. -/
def kvoVf (x : Nat → HLCV R) (n : Nat) : R :=
  kvoForce ((x (n + 1)).high - (x (n + 1)).low) (kvoTC x (n + 1)).2 (x (n + 1)).volume (kvoTC x (n + 1)).1

theorem kvo_run (o : Nat → R) (s p : Nat) (hs : toInt (o 0) = .ok (s : Int)) (hc : toInt (o 1) = .ok (p : Int))
    (h1 : 1 ≤ s) (h2 : s ≤ p) : Computes kvoBatch o 1 (fun x j =>
      emaRec (emaPer (s : Int)) (kvoVf x) j - emaRec (emaPer (p : Int)) (kvoVf x) j) := by
  intro x N
  unfold kvoBatch
  simp only [hs, hc, bind_ok, wadStart, length_pre, pure_eq]
  rw [if_neg (by omega), if_neg (by omega)]
  split
  · rename_i h; simp [show N - 1 = 0 by omega]
  rw [rd_zero _ _ (by omega), bind_ok]
  refine forUp_bind 1 N (fun i => ((x (i - 1)).high + (x (i - 1)).low + (x (i - 1)).close, kvoTC x (i - 1),
      (if i = 1 then c! 0 else emaRec (emaPer (s : Int)) (kvoVf x) (i - 2)),
      (if i = 1 then c! 0 else emaRec (emaPer (p : Int)) (kvoVf x) (i - 2)),
      pre (fun j => emaRec (emaPer (s : Int)) (kvoVf x) j
        - emaRec (emaPer (p : Int)) (kvoVf x) j) (i - 1))) rfl rfl
    (by simp [kvoTC]) (by omega) ?_ ?_
  · intro i h1 hi
    obtain ⟨k, rfl⟩ : ∃ k, i = k + 1 := ⟨i - 1, by omega⟩
    have e : ∀ a : R, (if ((k + 1 : Nat) : Int) = 1 then kvoVf x k else
        (kvoVf x k - (if k + 1 = 1 then c! 0 else emaRec a (kvoVf x) (k + 1 - 2))) * a +
          (if k + 1 = 1 then c! 0 else emaRec a (kvoVf x) (k + 1 - 2)))
        = emaRec a (kvoVf x) k := by
      intro a
      cases k with
      | zero => simp [emaRec]
      | succ i => rw [if_neg (by omega)]; simp [emaRec]
    run_simp [show ((k + 1 : Nat) : Int) - 1 = (k : Int) by omega, Nat.add_sub_cancel]
    have e2 : kvoForce ((x (k + 1)).high - (x (k + 1)).low)
        ((kvoTrend ((x (k + 1)).high + (x (k + 1)).low + (x (k + 1)).close)
      ((x k).high + (x k).low + (x k).close) (x k) (kvoTC x k)).2 + ((x (k + 1)).high - (x (k + 1)).low)) (x (k + 1)).volume
       (kvoTrend ((x (k + 1)).high + (x (k + 1)).low + (x (k + 1)).close)
      ((x k).high + (x k).low + (x k).close) (x k) (kvoTC x k)).1 = kvoVf x k := rfl
    rw [e2, e, e, pre_snoc (m := k + 1) rfl (by rfl)]
    simp only [if_neg (show ¬ k + 1 + 1 = 1 by omega), show k + 1 + 1 - 2 = k by omega]
    rfl
  · run_simp []

/-- Money flow signals of mfi: entry `k` compares bars `k+1` and `k`. -/
def typSig (x : Nat → HLCV R) (k : Nat) : R := typPrice (x k).high (x k).low (x k).close
def mfiUp (x : Nat → HLCV R) (k : Nat) : R :=
  if typSig x k < typSig x (k + 1) then typSig x (k + 1) * (x (k + 1)).volume else c! 0
def mfiDown (x : Nat → HLCV R) (k : Nat) : R :=
  if typSig x k < typSig x (k + 1) then c! 0
  else if typSig x (k + 1) < typSig x k then typSig x (k + 1) * (x (k + 1)).volume else c! 0

theorem mfi_run (o : Nat → R) (p : Nat) (hc : toInt (o 0) = .ok (p : Int)) (hp : 1 ≤ p) :
    Computes mfiBatch o p (fun x j => mfiOut (TiBuf.bsum (mfiUp x) p (j + p)) (TiBuf.bsum (mfiDown x) p (j + p))) := by
  intro x N
  unfold mfiBatch
  simp only [hc, bind_ok, mfiStart, length_pre, pure_eq]
  rw [if_neg (by omega)]
  split
  · rename_i h; simp [show N - p = 0 by omega]
  rw [rd_zero _ _ (by omega), bind_ok]
  refine forUp_bind 1 N (fun i => (typSig x (i - 1), TiBuf.after (mfiUp x) p (i - 1), TiBuf.after (mfiDown x) p (i - 1),
    pre (fun j => mfiOut (TiBuf.bsum (mfiUp x) p (j + p)) (TiBuf.bsum (mfiDown x) p (j + p))) (i - p))) rfl rfl ?_
    (by omega) ?_ ?_
  · simp [typSig, TiBuf.after, show 1 - p = 0 by omega]
  · intro i h1 hi
    obtain ⟨k, rfl⟩ : ∃ k, i = k + 1 := ⟨i - 1, by omega⟩
    rw [rd_pre_nat _ _ _ hi]
    simp only [bind_ok, Nat.add_sub_cancel]
    rw [TiBuf.after_push _ _ hp _ _ (by rfl), bind_ok, TiBuf.after_push _ _ hp _ _ (by rfl), bind_ok]
    simp only [TiBuf.after_sum _ _ hp]
    by_cases hk : p ≤ k + 1
    · rw [if_pos (by omega)]
      run_simp []
      rw [pre_snoc (m := k + 1 + 1 - p) (by omega)]
      · rfl
      · simp only [show k + 1 - p + p = k + 1 by omega]
    · rw [if_neg (by omega)]
      simp only [show k + 1 - p = 0 by omega, show k + 1 + 1 - p = 0 by omega]
      rfl
  · run_simp []

theorem cmf_run (o : Nat → R) (p : Nat) (hc : toInt (o 0) = .ok (p : Int)) (hp : 1 ≤ p) :
    Computes cmfBatch o (p - 1) (fun x j =>
      let ad := slideS (fun k => chaikinAd (x k)) p (j + (p - 1)) + chaikinAd (x (j + (p - 1)))
      let vol := slideS (fun k => (x k).volume) p (j + (p - 1)) + (x (j + (p - 1))).volume
      if vol == c! 0 then c! 0 else ad / vol) := by
  intro x N
  unfold cmfBatch
  simp only [hc, bind_ok, cmfStart, startM1_ok hc hp, length_pre, pure_eq]
  rw [if_neg (by omega)]
  split
  · rename_i h; simp [show N - (p - 1) = 0 by omega]
  refine forUp_bind 0 (p - 1) (fun i => (slideS (fun k => chaikinAd (x k)) p i, slideS (fun k => (x k).volume) p i)) rfl
    (by omega) rfl (by omega) ?_ ?_
  · intro i h1 hi
    run_simp [slideS, if_pos hi]
  refine forUp_bind (p - 1) N (fun i => (slideS (fun k => chaikinAd (x k)) p i, slideS (fun k => (x k).volume) p i,
    pre (fun j =>
      let ad := slideS (fun k => chaikinAd (x k)) p (j + (p - 1)) + chaikinAd (x (j + (p - 1)))
      let vol := slideS (fun k => (x k).volume) p (j + (p - 1)) + (x (j + (p - 1))).volume
      if vol == c! 0 then c! 0 else ad / vol) (i - (p - 1)))) (by omega) rfl (by simp) (by omega) ?_ ?_
  · intro i h1 hi
    obtain ⟨k, rfl⟩ : ∃ k, i = k + (p - 1) := ⟨i - (p - 1), by omega⟩
    run_simp [show ((k + (p - 1) : Nat) : Int) - p + 1 = (k : Int) by omega, slideS,
      if_neg (show ¬ k + (p - 1) < p - 1 by omega)]
    rw [pre_snoc (m := k + (p - 1) + 1 - (p - 1)) (by omega)]
    · rw [Nat.add_sub_cancel]
    · rw [Nat.add_sub_cancel]
  · run_simp []

/-- Sum over the last `s` of `i` values while filling a window of length `p`, then sliding. -/
def slideT (x : Nat → R) (s p : Nat) : Nat → R
  | 0 => c! 0
  | i + 1 => if i < p then (if p - s ≤ i then slideT x s p i + x i else slideT x s p i)
    else slideT x s p i + x i - x (i - s)

theorem vosc_run (o : Nat → R) (s p : Nat) (hs : toInt (o 0) = .ok (s : Int)) (hc : toInt (o 1) = .ok (p : Int))
    (h1 : 1 ≤ s) (h2 : s ≤ p) : Computes voscBatch o (p - 1) (fun x j =>
      voscOut (slideT x s p (j + p) * (c! 1 / ((s : Int) : R))) (slide x p (j + p) * (c! 1 / ((p : Int) : R)))) := by
  intro x N
  unfold voscBatch
  simp only [hs, hc, bind_ok, voscStart, startM1_ok hc (show 1 ≤ p by omega), length_pre, pure_eq]
  rw [if_neg (by omega), if_neg (by omega)]
  split
  · rename_i h; simp [show N - (p - 1) = 0 by omega]
  refine forUp_bind 0 p (fun i => (slideT x s p i, slide x p i)) rfl rfl rfl (by omega) ?_ ?_
  · intro i _ hi
    run_simp [slide, slideT, if_pos hi]
    by_cases h : p - s ≤ i
    · rw [if_pos h, if_pos (by omega)]
    · rw [if_neg h, if_neg (by omega)]
  run_simp []
  refine forUp_bind p N (fun i => (slideT x s p i, slide x p i, pre (fun j =>
    voscOut (slideT x s p (j + p) * (c! 1 / ((s : Int) : R))) (slide x p (j + p) * (c! 1 / ((p : Int) : R)))) (i + 1 - p)))
    rfl rfl (by simp [pre_succ]) (by omega) ?_ ?_
  · intro i h1 hi
    have e : slide x p (i + 1) = slide x p i + x i - x (i - p) := by rw [slide, if_neg (by omega)]
    have e' : slideT x s p (i + 1) = slideT x s p i + x i - x (i - s) := by rw [slideT, if_neg (by omega)]
    run_simp []
    rw [← e, ← e', pre_snoc (m := i + 1 + 1 - p) (by omega)]
    simp only [show i + 1 - p + p = i + 1 by omega]
  · rw [finish_ok (by simp; omega), show N + 1 - p = N - (p - 1) by omega]

theorem ao_run (o : Nat → R) : Computes aoBatch o 33 (fun x j =>
      c! 1 / c! 5 * slideT (fun k => aoMid (x k)) 5 34 (j + 34) - c! 1 / c! 34 * slide (fun k => aoMid (x k)) 34 (j + 34)) := by
  intro x N
  unfold aoBatch
  simp only [aoStart, bind_ok, length_pre, pure_eq]
  split
  · rename_i h; simp [show N - 33 = 0 by omega]
  refine forUp_bind 0 34 (fun i => (slide (fun k => aoMid (x k)) 34 i, slideT (fun k => aoMid (x k)) 5 34 i)) rfl rfl rfl
    (by omega) ?_ ?_
  · intro i _ hi
    run_simp [slide, slideT, if_pos hi]
    by_cases h : 34 - 5 ≤ i
    · rw [if_pos h, if_pos (by omega)]
    · rw [if_neg h, if_neg (by omega)]
  run_simp []
  refine forUp_bind 34 N (fun i => (slide (fun k => aoMid (x k)) 34 i, slideT (fun k => aoMid (x k)) 5 34 i, pre (fun j =>
      c! 1 / c! 5 * slideT (fun k => aoMid (x k)) 5 34 (j + 34) - c! 1 / c! 34 * slide (fun k => aoMid (x k)) 34 (j + 34)) (i + 1 - 34)))
    rfl rfl rfl (by omega) ?_ ?_
  · intro i h1 hi
    have e : slide (fun k => aoMid (x k)) 34 (i + 1) = slide (fun k => aoMid (x k)) 34 i + aoMid (x i) - aoMid (x (i - 34)) := by
      rw [slide, if_neg (by omega)]
    have e' : slideT (fun k => aoMid (x k)) 5 34 (i + 1) = slideT (fun k => aoMid (x k)) 5 34 i + aoMid (x i) - aoMid (x (i - 5)) := by
      rw [slideT, if_neg (by omega)]
    run_simp [show ((i : Int) - 34).toNat = i - 34 by omega, show ((i : Int) - 5).toNat = i - 5 by omega]
    rw [← e, ← e', pre_snoc (m := i + 1 + 1 - 34) (by omega)]
    simp only [show i + 1 - 34 + 34 = i + 1 by omega]
  · rw [finish_ok (by simp; omega), show N + 1 - 34 = N - 33 by omega]

theorem qstick_run (o : Nat → R) (p : Nat) (hc : toInt (o 0) = .ok (p : Int)) (hp : 1 ≤ p) :
    Computes qstickBatch o (p - 1) (fun x j =>
      slide (fun k => (x k).close - (x k).open) p (j + p) * (c! 1 / ((p : Int) : R))) := by
  intro x N
  unfold qstickBatch
  simp only [hc, bind_ok, qstickStart, startM1_ok hc hp, length_pre, pure_eq]
  rw [if_neg (by omega)]
  split
  · rename_i h; simp [show N - (p - 1) = 0 by omega]
  refine forUp_bind 0 p (slide (fun k => (x k).close - (x k).open) p) rfl rfl rfl (by omega) ?_ ?_
  · intro i _ hi
    run_simp [slide, if_pos hi]
  run_simp []
  refine forUp_bind p N (fun i => (slide (fun k => (x k).close - (x k).open) p i, pre (fun j =>
      slide (fun k => (x k).close - (x k).open) p (j + p) * (c! 1 / ((p : Int) : R))) (i + 1 - p)))
    rfl rfl (by simp [pre_succ]) (by omega) ?_ ?_
  · intro i h1 hi
    have e : slide (fun k => (x k).close - (x k).open) p (i + 1) = slide (fun k => (x k).close - (x k).open) p i
      + ((x i).close - (x i).open) - ((x (i - p)).close - (x (i - p)).open) := by rw [slide, if_neg (by omega)]
    run_simp []
    rw [← e, pre_snoc (m := i + 1 + 1 - p) (by omega)]
    simp only [show i + 1 - p + p = i + 1 by omega]
  · rw [finish_ok (by simp; omega), show N + 1 - p = N - (p - 1) by omega]

theorem dpo_run (o : Nat → R) (p : Nat) (hc : toInt (o 0) = .ok (p : Int)) (hp : 3 ≤ p) :
    Computes dpoBatch o (p - 1) (fun x j =>
      x (j + (p - 1) - (p / 2 + 1)) - slide x p (j + p) * (c! 1 / ((p : Int) : R))) := by
  intro x N
  have hr := toInt_range hc
  have hb : Int.tdiv (p : Int) 2 + 1 = ((p / 2 + 1 : Nat) : Int) := by
    rw [show (2 : Int) = ((2 : Nat) : Int) by rfl, ← Int.ofNat_tdiv]; rfl
  have hb2 : p / 2 + 1 ≤ p - 1 := by omega
  have hi : i32 (Int.tdiv (p : Int) 2 + 1) = .ok ((p / 2 + 1 : Nat) : Int) := by
    rw [hb]; exact i32_ok _ (by omega) (by omega)
  unfold dpoBatch
  rw [hc, bind_ok, hi, bind_ok]
  simp only [hc, bind_ok, qstickStart, startM1_ok hc (show 1 ≤ p by omega), length_pre, pure_eq]
  clear hi hb
  generalize p / 2 + 1 = b at hb2 ⊢
  rw [if_neg (by omega)]
  split
  · rename_i h; simp [show N - (p - 1) = 0 by omega]
  refine forUp_bind 0 p (slide x p) rfl rfl rfl (by omega) ?_ ?_
  · intro i _ hi
    run_simp [slide, if_pos hi]
  rw [rd_at (p - 1 - b) (by omega) (by omega)]
  run_simp []
  refine forUp_bind p N (fun i => (slide x p i, pre (fun j =>
      x (j + (p - 1) - b) - slide x p (j + p) * (c! 1 / ((p : Int) : R))) (i + 1 - p)))
    rfl rfl (by simp [pre_succ]) (by omega) ?_ ?_
  · intro i h1 hi
    have e : slide x p (i + 1) = slide x p i + x i - x (i - p) := by rw [slide, if_neg (by omega)]
    run_simp [show (i : Int) - ((b : Nat) : Int) = ((i - b : Nat) : Int) by omega]
    rw [← e, pre_snoc (m := i + 1 + 1 - p) (by omega)]
    simp only [show i + 1 - p + p = i + 1 by omega, show i + 1 - p + (p - 1) = i by omega]
  · rw [finish_ok (by simp; omega), show N + 1 - p = N - (p - 1) by omega]

end Verif
