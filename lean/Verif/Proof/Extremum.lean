/- Extremum tracking: runs in any arithmetic, and correctness over a total order (helper lemmas). -/
import Verif.Model.Extremum
import Verif.Proof.Window
import Verif.Proof.TiBuf

namespace Verif
set_option linter.unusedSectionVars false
set_option linter.unusedSimpArgs false
variable {R : Type} [Num R]

/-- The rescan of `t, …, t+n`. -/
def scanP (rep : R → R → Bool) (f : Nat → R) (t : Nat) : Nat → Int × R
  | 0 => ((t : Int), f t)
  | n + 1 => if rep (f (t + n + 1)) (scanP rep f t n).2 then (((t + n + 1 : Nat) : Int), f (t + n + 1)) else scanP rep f t n

def trackP (rep : R → R → Bool) (f : Nat → R) (t i : Nat) (s : Int × R) : Int × R :=
  if s.1 < (t : Int) then scanP rep f t (i - t) else if rep (f i) s.2 then ((i : Int), f i) else s

theorem track_ok (rep : R → R → Bool) (get : Int → M R) (f : Nat → R) (t i : Nat) (hti : t ≤ i)
    (hget : ∀ j : Nat, t ≤ j → j ≤ i → get (j : Int) = .ok (f j)) (s : Int × R) (t' : Int) (ht : t' = (t : Int)) :
    track rep get t' (i : Int) s = .ok (trackP rep f t i s) := by
  subst ht
  unfold track trackP
  rw [hget i hti le_rfl, bind_ok]
  split
  · rw [hget t le_rfl hti, bind_ok]
    have := forUp_nat (f := fun j (s : Int × R) => do
      let bar ← get j
      return if rep bar s.2 then (j, bar) else s) (a := t + 1) (b := i + 1) (fun j => scanP rep f t (j - (t + 1)))
      (by omega) (by
        intro j h1 h2
        obtain ⟨n, rfl⟩ : ∃ n, j = t + n + 1 := ⟨j - (t + 1), by omega⟩
        rw [hget _ (by omega) (by omega)]
        simp only [bind_ok, pure_eq, show t + n + 1 + 1 - (t + 1) = n + 1 by omega, show t + n + 1 - (t + 1) = n by omega,
          scanP])
    simp only [show i + 1 - (t + 1) = i - t by omega, Nat.sub_self, scanP] at this
    exact this
  · rfl

/-- State of the tracking before loop index `i0 + k`, the window being the last `w+1` bars. -/
def trk (rep : R → R → Bool) (f : Nat → R) (m0 : R) (w i0 : Nat) : Nat → Int × R
  | 0 => ((-1 : Int), m0)
  | k + 1 => trackP rep f (i0 + k - w) (i0 + k) (trk rep f m0 w i0 k)

theorem max_run (o : Nat → R) (p : Nat) (hc : toInt (o 0) = .ok (p : Int)) (hp : 1 ≤ p) :
    Computes maxBatch o (p - 1) (fun x j => (trk repMax x (x 0) (p - 1) (p - 1) (j + 1)).2) := by
  intro x N
  unfold maxBatch
  simp only [hc, bind_ok, maxStart, startM1_ok hc hp, length_pre, pure_eq]
  rw [if_neg (by omega)]
  split
  · rename_i h; simp [show N - (p - 1) = 0 by omega]
  run_simp []
  refine forUp_bind (p - 1) N (fun i => (((i - (p - 1) : Nat) : Int),
    (trk repMax x (x 0) (p - 1) (p - 1) (i - (p - 1))).1, (trk repMax x (x 0) (p - 1) (p - 1) (i - (p - 1))).2,
    pre (fun j => (trk repMax x (x 0) (p - 1) (p - 1) (j + 1)).2) (i - (p - 1)))) (by omega) rfl (by simp [trk])
    (by omega) ?_ ?_
  · intro i h1 hi
    obtain ⟨k, rfl⟩ : ∃ k, i = (p - 1) + k := ⟨i - (p - 1), by omega⟩
    rw [track_ok repMax _ x ((p - 1) + k - (p - 1)) ((p - 1) + k) (by omega)
      (fun j _ h2 => rd_pre_nat x N j (by omega)) _ _ rfl]
    run_simp []
    simp only [show p - 1 + k + 1 - (p - 1) = k + 1 by omega, show p - 1 + k - (p - 1) = k by omega]
    rw [pre_snoc (m := k + 1) rfl (by simp [trk])]
    simp [trk]
  · run_simp []

theorem min_run (o : Nat → R) (p : Nat) (hc : toInt (o 0) = .ok (p : Int)) (hp : 1 ≤ p) :
    Computes minBatch o (p - 1) (fun x j => (trk repMin x (x 0) (p - 1) (p - 1) (j + 1)).2) := by
  intro x N
  unfold minBatch
  simp only [hc, bind_ok, minStart, startM1_ok hc hp, length_pre, pure_eq]
  rw [if_neg (by omega)]
  split
  · rename_i h; simp [show N - (p - 1) = 0 by omega]
  run_simp []
  refine forUp_bind (p - 1) N (fun i => (((i - (p - 1) : Nat) : Int),
    (trk repMin x (x 0) (p - 1) (p - 1) (i - (p - 1))).1, (trk repMin x (x 0) (p - 1) (p - 1) (i - (p - 1))).2,
    pre (fun j => (trk repMin x (x 0) (p - 1) (p - 1) (j + 1)).2) (i - (p - 1)))) (by omega) rfl (by simp [trk])
    (by omega) ?_ ?_
  · intro i h1 hi
    obtain ⟨k, rfl⟩ : ∃ k, i = (p - 1) + k := ⟨i - (p - 1), by omega⟩
    rw [track_ok repMin _ x ((p - 1) + k - (p - 1)) ((p - 1) + k) (by omega)
      (fun j _ h2 => rd_pre_nat x N j (by omega)) _ _ rfl]
    run_simp []
    simp only [show p - 1 + k + 1 - (p - 1) = k + 1 by omega, show p - 1 + k - (p - 1) = k by omega]
    rw [pre_snoc (m := k + 1) rfl (by simp [trk])]
    simp [trk]
  · run_simp []

/-- What the reference loops compute. -/
def refScan (g : R → R → R) (f : Nat → R) (t : Nat) : Nat → R
  | 0 => f t
  | n + 1 => g (refScan g f t n) (f (t + n + 1))

theorem refLoop (g : R → R → R) (x : Nat → R) (N t i : Nat) (hti : t ≤ i) (hi : i < N) (lo hi' : Int)
    (hlo : lo = ((t + 1 : Nat) : Int)) (hhi : hi' = ((i + 1 : Nat) : Int)) :
    (forUp lo hi' (x t) fun j m => do
      let v ← rd (pre x N) j
      .ok (g m v)) = .ok (refScan g x t (i - t)) := by
  subst hlo hhi
  have := forUp_nat (f := fun j m => do
      let v ← rd (pre x N) j
      .ok (g m v)) (a := t + 1) (b := i + 1) (fun j => refScan g x t (j - (t + 1))) (by omega) (by
    intro j h1 h2
    obtain ⟨n, rfl⟩ : ∃ n, j = t + n + 1 := ⟨j - (t + 1), by omega⟩
    rw [rd_pre_nat _ _ _ (by omega)]
    simp only [bind_ok, pure_eq, show t + n + 1 + 1 - (t + 1) = n + 1 by omega, show t + n + 1 - (t + 1) = n by omega,
      refScan])
  simp only [show i + 1 - (t + 1) = i - t by omega, Nat.sub_self] at this
  exact this

theorem maxRef_run (o : Nat → R) (p : Nat) (hc : toInt (o 0) = .ok (p : Int)) (hp : 1 ≤ p) :
    Computes maxRef o (p - 1) (fun x j => refScan (fun m v => if v < m then m else v) x j (p - 1)) := by
  intro x N
  unfold maxRef
  simp only [hc, bind_ok, maxStart, startM1_ok hc hp, length_pre, pure_eq]
  rw [if_neg (by omega)]
  split
  · rename_i h; simp [show N - (p - 1) = 0 by omega]
  refine forUp_bind (p - 1) N (fun i => pre (fun j => refScan (fun m v => if v < m then m else v) x j (p - 1))
    (i - (p - 1))) (by omega) rfl (by simp) (by omega) ?_ rfl
  intro i h1 hi
  obtain ⟨k, rfl⟩ : ∃ k, i = k + (p - 1) := ⟨i - (p - 1), by omega⟩
  rw [show ((k + (p - 1) : Nat) : Int) - p + 1 = (k : Int) by omega, rd_pre_nat _ _ _ (by omega), bind_ok,
    refLoop (fun m v => if v < m then m else v) x N k (k + (p - 1)) (by omega) hi _ _ (by omega) (by omega), bind_ok,
    wr_ok _ _ _ (by simp; omega), pre_snoc (m := k + (p - 1) + 1 - (p - 1)) (by omega)]
  simp

theorem minRef_run (o : Nat → R) (p : Nat) (hc : toInt (o 0) = .ok (p : Int)) (hp : 1 ≤ p) :
    Computes minRef o (p - 1) (fun x j => refScan (fun m v => if m < v then m else v) x j (p - 1)) := by
  intro x N
  unfold minRef
  simp only [hc, bind_ok, minStart, startM1_ok hc hp, length_pre, pure_eq]
  rw [if_neg (by omega)]
  split
  · rename_i h; simp [show N - (p - 1) = 0 by omega]
  refine forUp_bind (p - 1) N (fun i => pre (fun j => refScan (fun m v => if m < v then m else v) x j (p - 1))
    (i - (p - 1))) (by omega) rfl (by simp) (by omega) ?_ (by run_simp [])
  intro i h1 hi
  obtain ⟨k, rfl⟩ : ∃ k, i = k + (p - 1) := ⟨i - (p - 1), by omega⟩
  rw [show ((k + (p - 1) : Nat) : Int) - p + 1 = (k : Int) by omega, rd_pre_nat _ _ _ (by omega), bind_ok,
    refLoop (fun m v => if m < v then m else v) x N k (k + (p - 1)) (by omega) hi _ _ (by omega) (by omega), bind_ok,
    wr_ok _ _ _ (by simp; omega), pre_snoc (m := k + (p - 1) + 1 - (p - 1)) (by omega)]
  simp

theorem willr_run (o : Nat → R) (p : Nat) (hc : toInt (o 0) = .ok (p : Int)) (hp : 1 ≤ p) :
    Computes willrBatch o (p - 1) (fun x j => willrOut
      (trk repMax (fun i => (x i).high) (x 0).high (p - 1) (p - 1) (j + 1)).2
      (trk repMin (fun i => (x i).low) (x 0).low (p - 1) (p - 1) (j + 1)).2 (x (j + (p - 1))).close) := by
  intro x N
  unfold willrBatch
  simp only [hc, bind_ok, willrStart, startM1_ok hc hp, length_pre, pure_eq]
  rw [if_neg (by omega)]
  split
  · rename_i h; simp [show N - (p - 1) = 0 by omega]
  have hH : ∀ j : Nat, j < N → rdHigh (pre x N) (j : Int) = .ok (x j).high := fun j hj => by
    simp [rdHigh, rd_pre_nat _ _ _ hj]
  have hL : ∀ j : Nat, j < N → rdLow (pre x N) (j : Int) = .ok (x j).low := fun j hj => by
    simp [rdLow, rd_pre_nat _ _ _ hj]
  rw [show (0 : Int) = ((0 : Nat) : Int) from rfl, hH 0 (by omega), bind_ok, hL 0 (by omega), bind_ok]
  refine forUp_bind (p - 1) N (fun i => (((i - (p - 1) : Nat) : Int),
    trk repMax (fun i => (x i).high) (x 0).high (p - 1) (p - 1) (i - (p - 1)),
    trk repMin (fun i => (x i).low) (x 0).low (p - 1) (p - 1) (i - (p - 1)),
    pre (fun j => willrOut
      (trk repMax (fun i => (x i).high) (x 0).high (p - 1) (p - 1) (j + 1)).2
      (trk repMin (fun i => (x i).low) (x 0).low (p - 1) (p - 1) (j + 1)).2 (x (j + (p - 1))).close)
      (i - (p - 1)))) (by omega) rfl (by simp [trk]) (by omega) ?_ ?_
  · intro i h1 hi
    obtain ⟨k, rfl⟩ : ∃ k, i = (p - 1) + k := ⟨i - (p - 1), by omega⟩
    simp only
    rw [track_ok repMax _ (fun i => (x i).high) ((p - 1) + k - (p - 1)) ((p - 1) + k) (by omega)
      (fun j _ h2 => hH j (by omega)) _ _ rfl, bind_ok,
      track_ok repMin _ (fun i => (x i).low) ((p - 1) + k - (p - 1)) ((p - 1) + k) (by omega)
      (fun j _ h2 => hL j (by omega)) _ _ rfl]
    run_simp []
    simp only [show p - 1 + k + 1 - (p - 1) = k + 1 by omega, show p - 1 + k - (p - 1) = k by omega]
    rw [pre_snoc (m := k + 1) rfl (by simp [trk, Nat.add_comm])]
    simp [trk]
  · run_simp []

theorem aroon_run (o : Nat → R) (p : Nat) (hc : toInt (o 0) = .ok (p : Int)) (hp : 1 ≤ p) :
    Computes aroonBatch o p (fun x j =>
      (⟨(((p : Int) : R) - (((j + p : Nat) - (trk repMin (fun i => (x i).low) (x 0).low p p (j + 1)).1 : Int) : R)) * (c! 100 / ((p : Int) : R)),
        (((p : Int) : R) - (((j + p : Nat) - (trk repMax (fun i => (x i).high) (x 0).high p p (j + 1)).1 : Int) : R)) * (c! 100 / ((p : Int) : R))⟩ : Aroon R)) := by
  intro x N
  unfold aroonBatch
  simp only [hc, bind_ok, aroonStart, length_pre, pure_eq]
  rw [if_neg (by omega)]
  split
  · rename_i h; simp [show N - p = 0 by omega]
  have hH : ∀ j : Nat, j < N → rdHi (pre x N) (j : Int) = .ok (x j).high := fun j hj => by
    simp [rdHi, rd_pre_nat _ _ _ hj]
  have hL : ∀ j : Nat, j < N → rdLo (pre x N) (j : Int) = .ok (x j).low := fun j hj => by
    simp [rdLo, rd_pre_nat _ _ _ hj]
  rw [show (0 : Int) = ((0 : Nat) : Int) from rfl, hH 0 (by omega), bind_ok, hL 0 (by omega), bind_ok]
  refine forUp_bind p N (fun i => (((i - p : Nat) : Int),
    trk repMax (fun i => (x i).high) (x 0).high p p (i - p),
    trk repMin (fun i => (x i).low) (x 0).low p p (i - p),
    pre (fun j =>
      (⟨(((p : Int) : R) - (((j + p : Nat) - (trk repMin (fun i => (x i).low) (x 0).low p p (j + 1)).1 : Int) : R)) * (c! 100 / ((p : Int) : R)),
        (((p : Int) : R) - (((j + p : Nat) - (trk repMax (fun i => (x i).high) (x 0).high p p (j + 1)).1 : Int) : R)) * (c! 100 / ((p : Int) : R))⟩ : Aroon R))
      (i - p))) rfl rfl (by simp [trk]) (by omega) ?_ ?_
  · intro i h1 hi
    obtain ⟨k, rfl⟩ : ∃ k, i = p + k := ⟨i - p, by omega⟩
    simp only
    rw [track_ok repMax _ (fun i => (x i).high) (p + k - p) (p + k) (by omega)
      (fun j _ h2 => hH j (by omega)) _ _ rfl, bind_ok,
      track_ok repMin _ (fun i => (x i).low) (p + k - p) (p + k) (by omega)
      (fun j _ h2 => hL j (by omega)) _ _ rfl]
    run_simp []
    simp only [show p + k + 1 - p = k + 1 by omega, show p + k - p = k by omega]
    rw [pre_snoc (m := k + 1) rfl (by simp only [trk, Nat.add_comm k p, show p + k - p = k by omega])]
    simp [trk]
  · run_simp []

theorem aroonosc_run (o : Nat → R) (p : Nat) (hc : toInt (o 0) = .ok (p : Int)) (hp : 1 ≤ p) :
    Computes aroonoscBatch o p (fun x j =>
      (((trk repMax (fun i => (x i).high) (x 0).high p p (j + 1)).1
        - (trk repMin (fun i => (x i).low) (x 0).low p p (j + 1)).1 : Int) : R) * (c! 100 / ((p : Int) : R))) := by
  intro x N
  unfold aroonoscBatch
  simp only [hc, bind_ok, aroonStart, length_pre, pure_eq]
  rw [if_neg (by omega)]
  split
  · rename_i h; simp [show N - p = 0 by omega]
  have hH : ∀ j : Nat, j < N → rdHi (pre x N) (j : Int) = .ok (x j).high := fun j hj => by
    simp [rdHi, rd_pre_nat _ _ _ hj]
  have hL : ∀ j : Nat, j < N → rdLo (pre x N) (j : Int) = .ok (x j).low := fun j hj => by
    simp [rdLo, rd_pre_nat _ _ _ hj]
  rw [show (0 : Int) = ((0 : Nat) : Int) from rfl, hH 0 (by omega), bind_ok, hL 0 (by omega), bind_ok]
  refine forUp_bind p N (fun i => (((i - p : Nat) : Int),
    trk repMax (fun i => (x i).high) (x 0).high p p (i - p),
    trk repMin (fun i => (x i).low) (x 0).low p p (i - p),
    pre (fun j =>
      (((trk repMax (fun i => (x i).high) (x 0).high p p (j + 1)).1
        - (trk repMin (fun i => (x i).low) (x 0).low p p (j + 1)).1 : Int) : R) * (c! 100 / ((p : Int) : R)))
      (i - p))) rfl rfl (by simp [trk]) (by omega) ?_ ?_
  · intro i h1 hi
    obtain ⟨k, rfl⟩ : ∃ k, i = p + k := ⟨i - p, by omega⟩
    simp only
    rw [track_ok repMax _ (fun i => (x i).high) (p + k - p) (p + k) (by omega)
      (fun j _ h2 => hH j (by omega)) _ _ rfl, bind_ok,
      track_ok repMin _ (fun i => (x i).low) (p + k - p) (p + k) (by omega)
      (fun j _ h2 => hL j (by omega)) _ _ rfl]
    run_simp []
    simp only [show p + k + 1 - p = k + 1 by omega, show p + k - p = k by omega]
    rw [pre_snoc (m := k + 1) rfl (by simp only [trk, Nat.add_comm k p, show p + k - p = k by omega])]
    simp [trk]
  · run_simp []

/-- The midpoint series of fisher. -/
def midSig (x : Nat → HL R) (i : Nat) : R := c! 1 / c! 2 * ((x i).high + (x i).low)

/-- val1 and fish of fisher before loop index `p-1+j`. -/
def fisherSt (p : Nat) (x : Nat → HL R) : Nat → R × R
  | 0 => (c! 0, c! 0)
  | j + 1 =>
    let v := fisherVal (trk repMax (midSig x) (midSig x 0) (p - 1) (p - 1) (j + 1)).2
      (trk repMin (midSig x) (midSig x 0) (p - 1) (p - 1) (j + 1)).2 (midSig x (j + (p - 1))) (fisherSt p x j).1
    (v, fisherFish v (fisherSt p x j).2)

theorem fisher_run (o : Nat → R) (p : Nat) (hc : toInt (o 0) = .ok (p : Int)) (hp : 1 ≤ p) :
    Computes fisherBatch o (p - 1) (fun x j => (⟨(fisherSt p x (j + 1)).2, (fisherSt p x j).2⟩ : Fisher R)) := by
  intro x N
  unfold fisherBatch
  simp only [hc, bind_ok, fisherStart, startM1_ok hc hp, length_pre, pure_eq]
  rw [if_neg (by omega)]
  split
  · rename_i h; simp [show N - (p - 1) = 0 by omega]
  have hH : ∀ j : Nat, j < N → rdMid (pre x N) (j : Int) = .ok (midSig x j) := fun j hj => by
    simp [rdMid, midSig, rd_pre_nat _ _ _ hj]
  rw [show (0 : Int) = ((0 : Nat) : Int) from rfl, hH 0 (by omega), bind_ok]
  refine forUp_bind (p - 1) N (fun i => (((i - (p - 1) : Nat) : Int),
    trk repMax (midSig x) (midSig x 0) (p - 1) (p - 1) (i - (p - 1)),
    trk repMin (midSig x) (midSig x 0) (p - 1) (p - 1) (i - (p - 1)),
    (fisherSt p x (i - (p - 1))).1, (fisherSt p x (i - (p - 1))).2,
    pre (fun j => (⟨(fisherSt p x (j + 1)).2, (fisherSt p x j).2⟩ : Fisher R))
      (i - (p - 1)))) (by omega) rfl (by simp [trk, fisherSt]) (by omega) ?_ ?_
  · intro i h1 hi
    obtain ⟨k, rfl⟩ : ∃ k, i = (p - 1) + k := ⟨i - (p - 1), by omega⟩
    simp only
    rw [track_ok repMax _ (midSig x) ((p - 1) + k - (p - 1)) ((p - 1) + k) (by omega)
      (fun j _ h2 => hH j (by omega)) _ _ rfl, bind_ok,
      track_ok repMin _ (midSig x) ((p - 1) + k - (p - 1)) ((p - 1) + k) (by omega)
      (fun j _ h2 => hH j (by omega)) _ _ rfl, bind_ok, hH _ hi]
    run_simp []
    simp only [show p - 1 + k + 1 - (p - 1) = k + 1 by omega, show p - 1 + k - (p - 1) = k by omega]
    rw [pre_snoc (m := k + 1) rfl (by simp [fisherSt, trk, Nat.add_comm])]
    simp [trk, fisherSt, Nat.add_comm]
  · run_simp []

/-- |x_{k+1} - x_k| -/
def absDiff (x : Nat → R) (k : Nat) : R := CMath.fabs (x (k + 1) - x k)

theorem vhf_run (o : Nat → R) (p : Nat) (hc : toInt (o 0) = .ok (p : Int)) (hp : 1 ≤ p) :
    Computes vhfBatch o p (fun x j => vhfOut (trk repMax x (x 0) (p - 1) p (j + 1)).2
      (trk repMin x (x 0) (p - 1) p (j + 1)).2 (slide (absDiff x) p (j + p))) := by
  intro x N
  unfold vhfBatch
  simp only [hc, bind_ok, vhfStart, length_pre, pure_eq]
  rw [if_neg (by omega)]
  split
  · rename_i h; simp [show N - p = 0 by omega]
  run_simp []
  refine forUp_bind 1 p (fun i => (slide (absDiff x) p (i - 1), x (i - 1))) rfl rfl rfl (by omega) ?_ ?_
  · intro i h1 hi
    obtain ⟨k, rfl⟩ : ∃ k, i = k + 1 := ⟨i - 1, by omega⟩
    run_simp [Nat.add_sub_cancel, slide, absDiff, if_pos (show k < p by omega)]
  refine forUp_bind p N (fun i => (((i - (p - 1) : Nat) : Int),
    trk repMax x (x 0) (p - 1) p (i - p), trk repMin x (x 0) (p - 1) p (i - p),
    slide (absDiff x) p (i - 1), x (i - 1),
    pre (fun j => vhfOut (trk repMax x (x 0) (p - 1) p (j + 1)).2
      (trk repMin x (x 0) (p - 1) p (j + 1)).2 (slide (absDiff x) p (j + p))) (i - p))) rfl rfl
      (by simp [trk, show p - (p - 1) = 1 by omega]) (by omega) ?_ ?_
  · intro i h1 hi
    obtain ⟨q, rfl⟩ : ∃ q, p = q + 1 := ⟨p - 1, by omega⟩
    obtain ⟨k, rfl⟩ : ∃ k, i = q + 1 + k := ⟨i - (q + 1), by omega⟩
    have hs : (if ((q + 1 : Nat) : Int) < ((q + 1 + k : Nat) : Int) then do
          let a ← rd (pre x N) (((q + 1 + k : Nat) : Int) - ((q + 1 : Nat) : Int))
          let b ← rd (pre x N) (((q + 1 + k : Nat) : Int) - ((q + 1 : Nat) : Int) - 1)
          pure (slide (absDiff x) (q + 1) (q + 1 + k - 1) + CMath.fabs (x (q + 1 + k) - x (q + 1 + k - 1)) - CMath.fabs (a - b))
        else pure (slide (absDiff x) (q + 1) (q + 1 + k - 1) + CMath.fabs (x (q + 1 + k) - x (q + 1 + k - 1))) : M R)
        = .ok (slide (absDiff x) (q + 1) (q + 1 + k)) := by
      rcases Nat.eq_zero_or_pos k with rfl | hk
      · rw [if_neg (by omega)]; simp [slide, absDiff]
      · obtain ⟨l, rfl⟩ : ∃ l, k = l + 1 := ⟨k - 1, by omega⟩
        rw [if_pos (by omega)]
        run_simp [show ((q + 1 + (l + 1) : Nat) : Int) - ((q + 1 : Nat) : Int) = ((l + 1 : Nat) : Int) by omega,
          show ((l + 1 : Nat) : Int) - 1 = (l : Int) by omega, show q + 1 + (l + 1) - 1 = q + 1 + l by omega]
        rw [show q + 1 + (l + 1) = q + 1 + l + 1 by omega]
        rw [slide, if_neg (by omega), show q + 1 + l - (q + 1) = l by omega]; rfl
    rw [rd_pre_nat _ _ _ hi, bind_ok]
    simp only [pure_eq] at hs
    simp only [hs, bind_ok]
    rw [track_ok repMax _ x (q + 1 + k - q) (q + 1 + k) (by omega) (fun j _ h2 => rd_pre_nat x N j (by omega)) _ _ (by simp), bind_ok,
      track_ok repMin _ x (q + 1 + k - q) (q + 1 + k) (by omega) (fun j _ h2 => rd_pre_nat x N j (by omega)) _ _ (by simp), bind_ok]
    run_simp []
    simp only [Nat.add_sub_cancel, show q + 1 + k + 1 - q = q + 1 + k - q + 1 by omega,
      show q + 1 + k - (q + 1) = k by omega, show q + 1 + k + 1 - (q + 1) = k + 1 by omega]
    rw [pre_snoc (m := k + 1) rfl (by simp only [trk, show k + (q + 1) = q + 1 + k by omega])]
    simp [trk]
  · run_simp []

/-- Fast %K of stoch. -/
def stochF (kp : Nat) (x : Nat → HLC R) (i : Nat) : R :=
  stochFast (trk repMax (fun i => (x i).high) (x 0).high (kp - 1) 0 (i + 1)).2
    (trk repMin (fun i => (x i).low) (x 0).low (kp - 1) 0 (i + 1)).2 (x i).close

/-- Slow %K of stoch from its first defined value on. -/
def stochK (kp ks : Nat) (x : Nat → HLC R) (j : Nat) : R :=
  TiBuf.bsum (stochF kp x) ks (j + (kp - 1 + (ks - 1)) + 1) * (c! 1 / ((ks : Int) : R))

def stochV (kp ks dp : Nat) (x : Nat → HLC R) (j : Nat) : Stoch R :=
  ⟨stochK kp ks x (j + (dp - 1)), TiBuf.bsum (stochK kp ks x) dp (j + (dp - 1) + 1) * (c! 1 / ((dp : Int) : R))⟩

theorem stochStart_ok (o : Nat → R) (kp ks dp : Nat) (h0 : toInt (o 0) = .ok (kp : Int)) (h1 : toInt (o 1) = .ok (ks : Int))
    (h2 : toInt (o 2) = .ok (dp : Int)) (p0 : 1 ≤ kp) (p1 : 1 ≤ ks) (p2 : 1 ≤ dp) (hb : kp + ks + dp ≤ 2147483647) :
    stochStart o = .ok ((kp - 1 + (ks - 1) + (dp - 1) : Nat) : Int) := by
  simp only [stochStart, h0, h1, h2, bind_ok]
  rw [i32_ok _ (by omega) (by omega), bind_ok, i32_ok _ (by omega) (by omega), bind_ok, i32_ok _ (by omega) (by omega)]
  congr 1; omega

theorem stoch_run (o : Nat → R) (kp ks dp : Nat) (h0 : toInt (o 0) = .ok (kp : Int)) (h1 : toInt (o 1) = .ok (ks : Int))
    (h2 : toInt (o 2) = .ok (dp : Int)) (p0 : 1 ≤ kp) (p1 : 1 ≤ ks) (p2 : 1 ≤ dp) (hb : kp + ks + dp ≤ 2147483647) :
    Computes stochBatch o (kp - 1 + (ks - 1) + (dp - 1)) (stochV kp ks dp) := by
  intro x N
  unfold stochBatch
  simp only [h0, h1, h2, bind_ok, stochStart_ok o kp ks dp h0 h1 h2 p0 p1 p2 hb, length_pre, pure_eq]
  rw [if_neg (by omega), if_neg (by omega), if_neg (by omega)]
  split
  · rename_i h; simp [show N - (kp - 1 + (ks - 1) + (dp - 1)) = 0 by omega]
  have hH : ∀ j : Nat, j < N → rdHigh (pre x N) (j : Int) = .ok (x j).high := fun j hj => by
    simp [rdHigh, rd_pre_nat _ _ _ hj]
  have hL : ∀ j : Nat, j < N → rdLow (pre x N) (j : Int) = .ok (x j).low := fun j hj => by
    simp [rdLow, rd_pre_nat _ _ _ hj]
  rw [show (0 : Int) = ((0 : Nat) : Int) from rfl, hH 0 (by omega), bind_ok, hL 0 (by omega), bind_ok]
  refine forUp_bind 0 N (fun i => (((i - kp : Nat) : Int),
    trk repMax (fun i => (x i).high) (x 0).high (kp - 1) 0 i,
    trk repMin (fun i => (x i).low) (x 0).low (kp - 1) 0 i,
    TiBuf.after (stochF kp x) ks i, TiBuf.after (stochK kp ks x) dp (i - (kp - 1 + (ks - 1))),
    pre (stochV kp ks dp x) (i - (kp - 1 + (ks - 1) + (dp - 1))))) rfl rfl (by simp [trk, TiBuf.after]) (by omega) ?_ ?_
  · intro i _ hi
    simp only
    have ht : (if (kp : Int) ≤ (i : Int) then ((i - kp : Nat) : Int) + 1 else ((i - kp : Nat) : Int)) = ((i - (kp - 1) : Nat) : Int) := by
      split <;> omega
    simp only [ht, show ((i + 1 - kp : Nat) : Int) = ((i - (kp - 1) : Nat) : Int) by omega]
    rw [track_ok repMax _ (fun i => (x i).high) (i - (kp - 1)) i (by omega) (fun j _ h2 => hH j (by omega)) _ _ rfl, bind_ok,
      track_ok repMin _ (fun i => (x i).low) (i - (kp - 1)) i (by omega) (fun j _ h2 => hL j (by omega)) _ _ rfl, bind_ok,
      rd_pre_nat _ _ _ hi, bind_ok]
    have em : trackP repMax (fun i => (x i).high) (i - (kp - 1)) i (trk repMax (fun i => (x i).high) (x 0).high (kp - 1) 0 i)
      = trk repMax (fun i => (x i).high) (x 0).high (kp - 1) 0 (i + 1) := by simp [trk]
    have en : trackP repMin (fun i => (x i).low) (i - (kp - 1)) i (trk repMin (fun i => (x i).low) (x 0).low (kp - 1) 0 i)
      = trk repMin (fun i => (x i).low) (x 0).low (kp - 1) 0 (i + 1) := by simp [trk]
    have ef : stochFast (trk repMax (fun i => (x i).high) (x 0).high (kp - 1) 0 (i + 1)).2
      (trk repMin (fun i => (x i).low) (x 0).low (kp - 1) 0 (i + 1)).2 (x i).close = stochF kp x i := rfl
    rw [em, en, ef, TiBuf.after_push _ _ p1 _ _ rfl, bind_ok, TiBuf.after_sum _ _ p1]
    by_cases hk : kp - 1 + (ks - 1) ≤ i
    · obtain ⟨k, rfl⟩ : ∃ k, i = k + (kp - 1 + (ks - 1)) := ⟨i - (kp - 1 + (ks - 1)), by omega⟩
      rw [if_pos (by omega)]
      simp only [Nat.add_sub_cancel]
      have ek : TiBuf.bsum (stochF kp x) ks (k + (kp - 1 + (ks - 1)) + 1) * (c! 1 / ((ks : Int) : R)) = stochK kp ks x k := rfl
      rw [ek, TiBuf.after_push _ _ p2 _ _ rfl, bind_ok, TiBuf.after_sum _ _ p2,
        show k + (kp - 1 + (ks - 1)) + 1 - (kp - 1 + (ks - 1)) = k + 1 by omega]
      by_cases hd : dp - 1 ≤ k
      · obtain ⟨l, rfl⟩ : ∃ l, k = l + (dp - 1) := ⟨k - (dp - 1), by omega⟩
        rw [if_pos (by omega), wr_ok _ _ _ (by simp; omega), bind_ok,
          show l + (dp - 1) + (kp - 1 + (ks - 1)) - (kp - 1 + (ks - 1) + (dp - 1)) = l by omega,
          show l + (dp - 1) + (kp - 1 + (ks - 1)) + 1 - (kp - 1 + (ks - 1) + (dp - 1)) = l + 1 by omega,
          pre_snoc (m := l + 1) rfl (by rfl)]
      · rw [if_neg (by omega)]
        rw [show k + (kp - 1 + (ks - 1)) - (kp - 1 + (ks - 1) + (dp - 1)) = 0 by omega,
          show k + (kp - 1 + (ks - 1)) + 1 - (kp - 1 + (ks - 1) + (dp - 1)) = 0 by omega]
    · rw [if_neg (by omega), show i - (kp - 1 + (ks - 1)) = 0 by omega, show i + 1 - (kp - 1 + (ks - 1)) = 0 by omega,
        show i - (kp - 1 + (ks - 1) + (dp - 1)) = 0 by omega, show i + 1 - (kp - 1 + (ks - 1) + (dp - 1)) = 0 by omega]
  · run_simp []

end Verif
