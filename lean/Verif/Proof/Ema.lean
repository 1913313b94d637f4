/- Exponential averages: runs in any arithmetic (helper lemmas). -/
import Verif.Model.Ema
import Verif.Proof.Contract

namespace Verif
set_option linter.unusedSectionVars false
set_option linter.unusedSimpArgs false
variable {R : Type} [Num R]

/-- Recurrence of an exponential average with coefficient `a` (any arithmetic). -/
def emaRec (a : R) (x : Nat → R) : Nat → R
  | 0 => x 0
  | n + 1 => (x (n + 1) - emaRec a x n) * a + emaRec a x n

theorem ema_run (o : Nat → R) (p : Nat) (hc : toInt (o 0) = .ok (p : Int)) (hp : 1 ≤ p) :
    Computes emaBatch o 0 (emaRec (emaPer p)) := by
  intro x N
  unfold emaBatch
  simp only [hc, bind_ok, emaStart, length_pre, pure_eq]
  rw [if_neg (by omega)]
  split
  · rename_i h; simp [show N = 0 by omega]
  run_simp []
  refine forUp_bind 1 N (fun i => (emaRec (emaPer p) x (i - 1), pre (emaRec (emaPer p) x) i)) rfl rfl ?_
    (by omega) ?_ ?_
  · simp [pre_succ, emaRec]
  · intro i h1 hi
    obtain ⟨k, rfl⟩ : ∃ k, i = k + 1 := ⟨i - 1, by omega⟩
    run_simp [Nat.add_sub_cancel]
    rw [pre_snoc rfl (by simp [emaRec])]
    simp [emaRec]
  · run_simp [Nat.sub_zero]

/-- `ema`, `ema2`, `ema3` of dema/tema before loop index `i`. -/
def demaE1 (a a1 : R) (x : Nat → R) : Nat → R
  | 0 => x 0
  | i + 1 => demaE1 a a1 x i * a1 + x i * a
def demaE2 (z a a1 : R) (p : Nat) (x : Nat → R) : Nat → R
  | 0 => z
  | i + 1 =>
    let e2 := if i = p - 1 then demaE1 a a1 x (i + 1) else demaE2 z a a1 p x i
    if p - 1 ≤ i then e2 * a1 + demaE1 a a1 x (i + 1) * a else e2
def temaE3 (z a a1 : R) (p : Nat) (x : Nat → R) : Nat → R
  | 0 => z
  | i + 1 =>
    let e3 := if i = (p - 1) * 2 then demaE2 z a a1 p x (i + 1) else temaE3 z a a1 p x i
    if (p - 1) * 2 ≤ i then e3 * a1 + demaE2 z a a1 p x (i + 1) * a else e3

theorem demaStart_ok {o : Nat → R} {p : Nat} (hc : toInt (o 0) = .ok (p : Int)) (hp : 1 ≤ p)
    (hb : (p - 1) * 2 ≤ 2147483647) : demaStart o = .ok (((p - 1) * 2 : Nat) : Int) := by
  have e : ((p : Int) - 1) * 2 = (((p - 1) * 2 : Nat) : Int) := by omega
  simp only [demaStart, hc, bind_ok, e]
  exact i32_ok _ (by omega) (by omega)

theorem dema_run (o : Nat → R) (p : Nat) (hc : toInt (o 0) = .ok (p : Int)) (hp : 1 ≤ p)
    (hb : (p - 1) * 2 ≤ 2147483647) :
    Computes demaBatch o ((p - 1) * 2) (fun x j =>
      demaE1 (emaPer p) (c! 1 - emaPer p) x (j + (p - 1) * 2 + 1) * c! 2
        - demaE2 (x 0) (emaPer p) (c! 1 - emaPer p) p x (j + (p - 1) * 2 + 1)) := by
  intro x N
  unfold demaBatch
  simp only [hc, bind_ok, demaStart_ok hc hp hb, length_pre, pure_eq]
  rw [if_neg (by omega)]
  split
  · rename_i h; simp [show N - (p - 1) * 2 = 0 by omega]
  run_simp [Int.toNat_zero]
  refine forUp_bind 0 N (fun i => (demaE1 (emaPer p) (c! 1 - emaPer p) x i,
    demaE2 (x 0) (emaPer p) (c! 1 - emaPer p) p x i, pre (fun j =>
      demaE1 (emaPer p) (c! 1 - emaPer p) x (j + (p - 1) * 2 + 1) * c! 2
        - demaE2 (x 0) (emaPer p) (c! 1 - emaPer p) p x (j + (p - 1) * 2 + 1)) (i - (p - 1) * 2)))
    rfl rfl (by simp [demaE1, demaE2]) (by omega) ?_ ?_
  · intro i _ hi
    run_simp []
    by_cases h1 : p - 1 ≤ i
    · rw [if_pos (by omega : (p : Int) - 1 ≤ i)]
      by_cases h2 : (p - 1) * 2 ≤ i
      · rw [if_pos (by omega : ((p : Int) - 1) * 2 ≤ i)]
        try run_simp []
        rw [pre_snoc (m := i + 1 - (p - 1) * 2) (by omega)]
        · simp only [demaE1, demaE2, h1, if_true, show ((i : Int) = p - 1) = (i = p - 1) by simp; omega]
        · simp only [show i - (p - 1) * 2 + (p - 1) * 2 = i by omega, demaE1, demaE2, h1, if_true,
            show ((i : Int) = p - 1) = (i = p - 1) by simp; omega]
      · rw [if_neg (by omega)]
        simp only [demaE1, demaE2, h1, if_true, show ((i : Int) = p - 1) = (i = p - 1) by simp; omega,
          show i - (p - 1) * 2 = 0 by omega, show i + 1 - (p - 1) * 2 = 0 by omega]
    · rw [if_neg (by omega)]
      simp only [demaE1, demaE2, h1, if_false, show ((i : Int) = p - 1) = (i = p - 1) by simp; omega,
        show i - (p - 1) * 2 = 0 by omega, show i + 1 - (p - 1) * 2 = 0 by omega]
  · run_simp []

theorem temaStart_ok {o : Nat → R} {p : Nat} (hc : toInt (o 0) = .ok (p : Int)) (hp : 1 ≤ p)
    (hb : (p - 1) * 3 ≤ 2147483647) : temaStart o = .ok (((p - 1) * 3 : Nat) : Int) := by
  have e : ((p : Int) - 1) * 3 = (((p - 1) * 3 : Nat) : Int) := by omega
  simp only [temaStart, hc, bind_ok, e]
  exact i32_ok _ (by omega) (by omega)

theorem tema_run (o : Nat → R) (p : Nat) (hc : toInt (o 0) = .ok (p : Int)) (hp : 1 ≤ p)
    (hb : (p - 1) * 3 ≤ 2147483647) :
    Computes temaBatch o ((p - 1) * 3) (fun x j =>
      c! 3 * demaE1 (emaPer p) (c! 1 - emaPer p) x (j + (p - 1) * 3 + 1)
        - c! 3 * demaE2 (c! 0) (emaPer p) (c! 1 - emaPer p) p x (j + (p - 1) * 3 + 1)
        + temaE3 (c! 0) (emaPer p) (c! 1 - emaPer p) p x (j + (p - 1) * 3 + 1)) := by
  intro x N
  unfold temaBatch
  simp only [hc, bind_ok, temaStart_ok hc hp hb, length_pre, pure_eq]
  rw [if_neg (by omega)]
  split
  · rename_i h; simp [show N - (p - 1) * 3 = 0 by omega]
  run_simp [Int.toNat_zero]
  refine forUp_bind 0 N (fun i => (demaE1 (emaPer p) (c! 1 - emaPer p) x i,
    demaE2 (c! 0) (emaPer p) (c! 1 - emaPer p) p x i,
    temaE3 (c! 0) (emaPer p) (c! 1 - emaPer p) p x i, pre (fun j =>
      c! 3 * demaE1 (emaPer p) (c! 1 - emaPer p) x (j + (p - 1) * 3 + 1)
        - c! 3 * demaE2 (c! 0) (emaPer p) (c! 1 - emaPer p) p x (j + (p - 1) * 3 + 1)
        + temaE3 (c! 0) (emaPer p) (c! 1 - emaPer p) p x (j + (p - 1) * 3 + 1)) (i - (p - 1) * 3)))
    rfl rfl (by simp [demaE1, demaE2, temaE3]) (by omega) ?_ ?_
  · intro i _ hi
    have e1 : ((i : Int) = p - 1) = (i = p - 1) := by simp; omega
    have e2 : ((i : Int) = (p - 1) * 2) = (i = (p - 1) * 2) := by simp; omega
    run_simp []
    by_cases h1 : p - 1 ≤ i
    · rw [if_pos (by omega : (p : Int) - 1 ≤ i)]
      by_cases h2 : (p - 1) * 2 ≤ i
      · rw [if_pos (by omega : ((p : Int) - 1) * 2 ≤ i)]
        by_cases h3 : (p - 1) * 3 ≤ i
        · rw [if_pos (by omega : ((p : Int) - 1) * 3 ≤ i)]
          try run_simp []
          rw [pre_snoc (m := i + 1 - (p - 1) * 3) (by omega)]
          · simp only [demaE1, demaE2, temaE3, h1, h2, if_true, e1, e2]
          · simp only [show i - (p - 1) * 3 + (p - 1) * 3 = i by omega, demaE1, demaE2, temaE3, h1, h2,
              if_true, e1, e2]
        · rw [if_neg (by omega)]
          simp only [demaE1, demaE2, temaE3, h1, h2, if_true, e1, e2,
            show i - (p - 1) * 3 = 0 by omega, show i + 1 - (p - 1) * 3 = 0 by omega]
      · rw [if_neg (by omega)]
        simp only [demaE1, demaE2, temaE3, h1, h2, if_true, if_false, e1, e2,
          show ¬ i = (p - 1) * 2 by omega,
          show i - (p - 1) * 3 = 0 by omega, show i + 1 - (p - 1) * 3 = 0 by omega]
    · rw [if_neg (by omega)]
      simp only [demaE1, demaE2, temaE3, h1, if_false, e1, e2, show ¬ i = (p - 1) * 2 by omega,
        show ¬ (p - 1) * 2 ≤ i by omega,
        show i - (p - 1) * 3 = 0 by omega, show i + 1 - (p - 1) * 3 = 0 by omega]
  · run_simp []

/-- `ema2`, `ema3` of trix after index `i` (index 0 leaves the initial zeros). -/
def trixE2 (a : R) (p : Nat) (x : Nat → R) : Nat → R
  | 0 => c! 0
  | n + 1 =>
    if n + 1 = p - 1 then emaRec a x (n + 1)
    else if p - 1 < n + 1 then (emaRec a x (n + 1) - trixE2 a p x n) * a + trixE2 a p x n
    else trixE2 a p x n
def trixE3 (a : R) (p : Nat) (x : Nat → R) : Nat → R
  | 0 => c! 0
  | n + 1 =>
    if p - 1 < n + 1 then
      if n + 1 = p * 2 - 2 then trixE2 a p x (n + 1)
      else if p * 2 - 2 < n + 1 then (trixE2 a p x (n + 1) - trixE3 a p x n) * a + trixE3 a p x n
      else trixE3 a p x n
    else trixE3 a p x n

theorem trixStart_ok {o : Nat → R} {p : Nat} (hc : toInt (o 0) = .ok (p : Int)) (hp : 1 ≤ p)
    (hb : p * 3 ≤ 2147483647) : trixStart o = .ok ((p * 3 - 2 : Nat) : Int) := by
  simp only [trixStart, hc, bind_ok]
  rw [i32_ok _ (by omega) (by omega), bind_ok, i32_ok _ (by omega) (by omega)]
  congr 1; omega

theorem trix_run (o : Nat → R) (p : Nat) (hc : toInt (o 0) = .ok (p : Int)) (hp : 1 ≤ p)
    (hb : p * 3 ≤ 2147483647) :
    Computes trixBatch o (p * 3 - 2) (fun x j =>
      let e := trixE3 (emaPer p) p x
      if e (j + (p * 3 - 2)) == c! 0 then c! 0
      else (e (j + (p * 3 - 2)) - e (j + (p * 3 - 2) - 1)) / e (j + (p * 3 - 2)) * c! 100) := by
  intro x N
  unfold trixBatch
  simp only [hc, bind_ok, trixStart_ok hc hp hb, length_pre, pure_eq]
  rw [if_neg (by omega)]
  split
  · rename_i h; simp [show N - (p * 3 - 2) = 0 by omega]
  rw [i32_ok _ (by omega) (by omega), bind_ok, i32_ok _ (by omega) (by omega), bind_ok, asrt_ok (by simp; omega)]
  run_simp [Int.toNat_zero]
  refine forUp_bind 1 (p * 3 - 2) (fun i => (emaRec (emaPer p) x (i - 1), trixE2 (emaPer p) p x (i - 1),
    trixE3 (emaPer p) p x (i - 1))) rfl (by omega) rfl (by omega) ?_ ?_
  · intro i h1 hi
    obtain ⟨k, rfl⟩ : ∃ k, i = k + 1 := ⟨i - 1, by omega⟩
    run_simp [Nat.add_sub_cancel, emaRec, trixE2, trixE3]
    have e1 : (((k + 1 : Nat) : Int) = p - 1) = (k + 1 = p - 1) := by simp; omega
    have e2 : ((p : Int) - 1 < ((k + 1 : Nat) : Int)) = (p - 1 < k + 1) := by simp; omega
    have e3 : (((k + 1 : Nat) : Int) = p * 2 - 2) = (k + 1 = p * 2 - 2) := by simp; omega
    have e4 : ((p : Int) * 2 - 2 < ((k + 1 : Nat) : Int)) = (p * 2 - 2 < k + 1) := by simp; omega
    simp only [e1, e2, e3, e4]
    by_cases c1 : k + 1 = p - 1
    · simp [c1]
    · simp only [c1, if_false]
      by_cases c2 : p - 1 < k + 1
      · simp only [c2, if_true]
        split
        · rfl
        · split <;> rfl
      · simp [c2]
  refine forUp_bind (p * 3 - 2) N (fun i => (emaRec (emaPer p) x (i - 1), trixE2 (emaPer p) p x (i - 1),
    trixE3 (emaPer p) p x (i - 1), pre (fun j =>
      let e := trixE3 (emaPer p) p x
      if e (j + (p * 3 - 2)) == c! 0 then c! 0
      else (e (j + (p * 3 - 2)) - e (j + (p * 3 - 2) - 1)) / e (j + (p * 3 - 2)) * c! 100)
        (i - (p * 3 - 2)))) (by omega) rfl ?_ (by omega) ?_ ?_
  · simp
  · intro i h1 hi
    obtain ⟨k, rfl⟩ : ∃ k, i = k + 1 := ⟨i - 1, by omega⟩
    have c1 : ¬ k + 1 = p - 1 := by omega
    have c2 : p - 1 < k + 1 := by omega
    have c3 : ¬ k + 1 = p * 2 - 2 ∨ p = 1 := by omega
    have c4 : p * 2 - 2 < k + 1 := by omega
    have c3 : ¬ k + 1 = p * 2 - 2 := by omega
    run_simp [Nat.add_sub_cancel]
    rw [pre_snoc (m := k + 1 + 1 - (p * 3 - 2)) (by omega)]
    · simp only [Nat.add_sub_cancel, emaRec, trixE2, trixE3, c1, c2, c3, c4, if_true, if_false]
    · simp only [show k + 1 - (p * 3 - 2) + (p * 3 - 2) = k + 1 by omega, Nat.add_sub_cancel, emaRec, trixE2,
        trixE3, c1, c2, c3, c4, if_true, if_false]
  · run_simp []

/-- `val` of zlema, output `j`; `l` is the lag. -/
def zlemaRec (a : R) (l : Nat) (x : Nat → R) : Nat → R
  | 0 => x (l - 1)
  | j + 1 => ((x (j + l) + (x (j + l) - x j)) - zlemaRec a l x j) * a + zlemaRec a l x j

theorem zlemaStart_ok {o : Nat → R} {p : Nat} (hc : toInt (o 0) = .ok (p : Int)) (hp : 1 ≤ p) :
    zlemaStart o = .ok (((p - 1) / 2 : Nat) - 1 : Int) := by
  have hr := toInt_range hc
  simp only [zlemaStart, hc, bind_ok]
  rw [i32_ok _ (by omega) (by omega), bind_ok]
  have : Int.tdiv ((p : Int) - 1) 2 = (((p - 1) / 2 : Nat) : Int) := by
    rw [Int.tdiv_eq_ediv_of_nonneg (by omega)]; omega
  rw [this, i32_ok _ (by omega) (by omega)]

theorem zlema_run (o : Nat → R) (p : Nat) (hc : toInt (o 0) = .ok (p : Int)) (hp : 3 ≤ p) :
    Computes zlemaBatch o ((p - 1) / 2 - 1) (zlemaRec (emaPer p) ((p - 1) / 2)) := by
  intro x N
  have hr := toInt_range hc
  have ht : Int.tdiv ((p : Int) - 1) 2 = (((p - 1) / 2 : Nat) : Int) := by
    rw [Int.tdiv_eq_ediv_of_nonneg (by omega)]; omega
  have hl : 1 ≤ (p - 1) / 2 := by omega
  unfold zlemaBatch
  simp only [hc, bind_ok, zlemaStart_ok hc (by omega), length_pre, pure_eq]
  rw [i32_ok _ (by omega) (by omega)]
  simp only [bind_ok, ht]
  generalize hlag : (p - 1) / 2 = l at *
  rw [if_neg (by omega)]
  split
  · rename_i h; simp [show N - (l - 1) = 0 by omega]
  rw [rd_at (l - 1) (by omega) (by omega)]
  run_simp []
  refine forUp_bind l N (fun i => (zlemaRec (emaPer p) l x (i - l), pre (zlemaRec (emaPer p) l x) (i + 1 - l)))
    rfl rfl ?_ (by omega) ?_ ?_
  · simp [pre_succ, zlemaRec]
  · intro i h1 hi
    obtain ⟨k, rfl⟩ : ∃ k, i = k + l := ⟨i - l, by omega⟩
    run_simp [Nat.add_sub_cancel]
    rw [show k + l + 1 - l = k + 1 by omega, show k + l + 1 + 1 - l = k + 1 + 1 by omega,
      pre_snoc rfl (by simp [zlemaRec])]
    simp [zlemaRec]
  · rw [finish_ok (by simp; omega), show N + 1 - l = N - (l - 1) by omega]

/-- The plain running sum of the first `i` values (any arithmetic). -/
def sumTo (x : Nat → R) : Nat → R
  | 0 => c! 0
  | i + 1 => sumTo x i + x i

/-- wilders, output `j`. -/
def wildersRec (p : Nat) (x : Nat → R) : Nat → R
  | 0 => sumTo x p / ((p : Int) : R)
  | j + 1 => (x (j + p) - wildersRec p x j) * (c! 1 / ((p : Int) : R)) + wildersRec p x j

theorem wildersStart_ok {o : Nat → R} {p : Nat} (hc : toInt (o 0) = .ok (p : Int)) (hp : 1 ≤ p) :
    wildersStart o = .ok ((p - 1 : Nat) : Int) := by
  have hr := toInt_range hc
  simp only [wildersStart, hc, bind_ok]
  rw [i32_ok _ (by omega) (by omega)]; congr 1; omega

theorem wilders_run (o : Nat → R) (p : Nat) (hc : toInt (o 0) = .ok (p : Int)) (hp : 1 ≤ p) :
    Computes wildersBatch o (p - 1) (wildersRec p) := by
  intro x N
  unfold wildersBatch
  simp only [hc, bind_ok, wildersStart_ok hc hp, length_pre, pure_eq]
  rw [if_neg (by omega)]
  split
  · rename_i h; simp [show N - (p - 1) = 0 by omega]
  refine forUp_bind 0 p (sumTo x) rfl rfl rfl (by omega) ?_ ?_
  · intro i _ hi; run_simp [sumTo]
  run_simp []
  refine forUp_bind p N (fun i => (wildersRec p x (i - p), pre (wildersRec p x) (i + 1 - p))) rfl rfl ?_
    (by omega) ?_ ?_
  · simp [pre_succ, wildersRec]
  · intro i h1 hi
    obtain ⟨k, rfl⟩ : ∃ k, i = k + p := ⟨i - p, by omega⟩
    run_simp [Nat.add_sub_cancel]
    rw [show k + p + 1 - p = k + 1 by omega, show k + p + 1 + 1 - p = k + 1 + 1 by omega,
      pre_snoc rfl (by simp [wildersRec])]
    simp [wildersRec]
  · rw [finish_ok (by simp; omega), show N + 1 - p = N - (p - 1) by omega]

theorem apo_run (o : Nat → R) (p q : Nat) (hc : toInt (o 0) = .ok (p : Int)) (hc1 : toInt (o 1) = .ok (q : Int))
    (hp : 1 ≤ p) (hq : 2 ≤ q) (hpq : p ≤ q) :
    Computes apoBatch o 1 (fun x j => emaRec (emaPer p) x (j + 1) - emaRec (emaPer q) x (j + 1)) := by
  intro x N
  unfold apoBatch
  simp only [hc, hc1, bind_ok, apoStart, length_pre, pure_eq]
  rw [if_neg (by omega), if_neg (by omega), if_neg (by omega)]
  split
  · rename_i h; simp [show N - 1 = 0 by omega]
  run_simp []
  refine forUp_bind 1 N (fun i => (emaRec (emaPer p) x (i - 1), emaRec (emaPer q) x (i - 1),
    pre (fun j => emaRec (emaPer p) x (j + 1) - emaRec (emaPer q) x (j + 1)) (i - 1))) rfl rfl ?_
    (by omega) ?_ ?_
  · simp [emaRec]
  · intro i h1 hi
    obtain ⟨k, rfl⟩ : ∃ k, i = k + 1 := ⟨i - 1, by omega⟩
    run_simp [Nat.add_sub_cancel]
    rw [pre_snoc rfl (by simp [emaRec])]
    simp [emaRec]
  · run_simp []

theorem ppo_run (o : Nat → R) (p q : Nat) (hc : toInt (o 0) = .ok (p : Int)) (hc1 : toInt (o 1) = .ok (q : Int))
    (hp : 1 ≤ p) (hq : 2 ≤ q) (hpq : p ≤ q) :
    Computes ppoBatch o 1 (fun x j =>
      let d := emaRec (emaPer p) x (j + 1) - emaRec (emaPer q) x (j + 1)
      if d == c! 0 then c! 0 else c! 100 * d / emaRec (emaPer q) x (j + 1)) := by
  intro x N
  unfold ppoBatch
  simp only [hc, hc1, bind_ok, ppoStart, length_pre, pure_eq]
  rw [if_neg (by omega), if_neg (by omega), if_neg (by omega)]
  split
  · rename_i h; simp [show N - 1 = 0 by omega]
  run_simp []
  refine forUp_bind 1 N (fun i => (emaRec (emaPer p) x (i - 1), emaRec (emaPer q) x (i - 1),
    pre (fun j => 
      let d := emaRec (emaPer p) x (j + 1) - emaRec (emaPer q) x (j + 1)
      if d == c! 0 then c! 0 else c! 100 * d / emaRec (emaPer q) x (j + 1)) (i - 1))) rfl rfl ?_
    (by omega) ?_ ?_
  · simp [emaRec]
  · intro i h1 hi
    obtain ⟨k, rfl⟩ : ∃ k, i = k + 1 := ⟨i - 1, by omega⟩
    run_simp [Nat.add_sub_cancel]
    rw [pre_snoc rfl (by rfl)]
    simp [emaRec]
  · run_simp []

/-- `short_per`/`long_per` of macd: the options 12/26 use other coefficients (macd.cc:40-44). -/
def macdPerS (p q : Nat) : R := if (p : Int) = 12 ∧ (q : Int) = 26 then c! 15 / c! 100 else emaPer p
def macdPerL (p q : Nat) : R := if (p : Int) = 12 ∧ (q : Int) = 26 then c! 75 / c! 1000 else emaPer q

/-- The macd line at index `i`. -/
def macdLine (p q : Nat) (x : Nat → R) (i : Nat) : R :=
  emaRec (macdPerS p q) x i - emaRec (macdPerL p q) x i

/-- The signal at output `j`; the average is seeded with its first value and then fed that value again. -/
def macdSig (p q r : Nat) (x : Nat → R) : Nat → R
  | 0 => let v := macdLine p q x (q - 1); (v - v) * emaPer r + v
  | j + 1 => (macdLine p q x (j + 1 + (q - 1)) - macdSig p q r x j) * emaPer r + macdSig p q r x j

/-- `signal_ema` before index `i`. -/
def macdSg (p q r : Nat) (x : Nat → R) (i : Nat) : R :=
  if i ≤ q - 1 then c! 0 else macdSig p q r x (i - 1 - (q - 1))

theorem macdStart_ok {o : Nat → R} {p : Nat} (hc : toInt (o 1) = .ok (p : Int)) (hp : 1 ≤ p) :
    macdStart o = .ok ((p - 1 : Nat) : Int) := by
  have hr := toInt_range hc
  simp only [macdStart, hc, bind_ok]
  rw [i32_ok _ (by omega) (by omega)]; congr 1; omega

theorem macd_run (o : Nat → R) (p q r : Nat) (hc : toInt (o 0) = .ok (p : Int))
    (hc1 : toInt (o 1) = .ok (q : Int)) (hc2 : toInt (o 2) = .ok (r : Int))
    (hp : 1 ≤ p) (hq : 2 ≤ q) (hpq : p ≤ q) (hr : 1 ≤ r) :
    Computes macdBatch o (q - 1) (fun x j =>
      ⟨macdLine p q x (j + (q - 1)), macdSig p q r x j, macdLine p q x (j + (q - 1)) - macdSig p q r x j⟩) := by
  intro x N
  unfold macdBatch
  simp only [hc, hc1, hc2, bind_ok, macdStart_ok hc1 (by omega : 1 ≤ q), length_pre, pure_eq]
  rw [if_neg (by omega), if_neg (by omega), if_neg (by omega), if_neg (by omega)]
  split
  · rename_i h; simp [show N - (q - 1) = 0 by omega]
  run_simp []
  refine forUp_bind 1 N (fun i => (emaRec (macdPerS p q) x (i - 1), emaRec (macdPerL p q) x (i - 1),
    macdSg p q r x i, pre (fun j => 
      (⟨macdLine p q x (j + (q - 1)), macdSig p q r x j, macdLine p q x (j + (q - 1)) - macdSig p q r x j⟩ : Macd R))
        (i - (q - 1)))) rfl rfl ?_
    (by omega) ?_ ?_
  · simp [emaRec, macdSg, show 1 ≤ q - 1 by omega, show 1 - (q - 1) = 0 by omega]
  · intro i h1 hi
    obtain ⟨k, rfl⟩ : ∃ k, i = k + 1 := ⟨i - 1, by omega⟩
    run_simp [Nat.add_sub_cancel]
    have hS : (x (k + 1) - emaRec (macdPerS p q) x k) *
      (if (p : Int) = 12 ∧ (q : Int) = 26 then c! 15 / c! 100 else emaPer (p : Int)) + emaRec (macdPerS p q) x k
        = emaRec (macdPerS p q) x (k + 1) := rfl
    have hL : (x (k + 1) - emaRec (macdPerL p q) x k) *
      (if (p : Int) = 12 ∧ (q : Int) = 26 then c! 75 / c! 1000 else emaPer (q : Int)) + emaRec (macdPerL p q) x k
        = emaRec (macdPerL p q) x (k + 1) := rfl
    simp only [hS, hL]
    have e1 : (((k + 1 : Nat) : Int) = q - 1) = (k + 1 = q - 1) := by simp; omega
    simp only [e1]
    by_cases c1 : q - 1 ≤ k + 1
    · rw [if_pos (by omega)]
      rcases Nat.eq_or_lt_of_le c1 with c2 | c2
      · rw [if_pos c2.symm]
        try run_simp []
        rw [pre_snoc (m := k + 1 + 1 - (q - 1)) (by omega)]
        · have e3 : macdSg p q r x (k + 1 + 1) = macdSig p q r x 0 := by
            unfold macdSg; rw [if_neg (by omega)]; congr 1; omega
          rw [e3, macdSig]; simp only [macdLine, c2]
        · simp only [show k + 1 - (q - 1) = 0 by omega, macdSig, macdLine, c2, Nat.sub_self, Nat.zero_add]
      · rw [if_neg (by omega)]
        try run_simp []
        obtain ⟨m, hm⟩ : ∃ m, k + 1 = m + 1 + (q - 1) := ⟨k - (q - 1), by omega⟩
        have e2 : macdSg p q r x (k + 1) = macdSig p q r x m := by
          unfold macdSg; rw [if_neg (by omega)]; congr 1; omega
        rw [e2, pre_snoc (m := k + 1 + 1 - (q - 1)) (by omega)]
        · simp only [macdSg, show ¬ k + 1 + 1 ≤ q - 1 by omega, if_false, Nat.add_sub_cancel,
            show k + 1 - (q - 1) = m + 1 by omega, macdSig, macdLine, ← hm]
        · simp only [show k + 1 - (q - 1) = m + 1 by omega, macdSig, macdLine, ← hm]
    · rw [if_neg (by omega), if_neg (by omega)]
      simp [macdSg, show k + 1 ≤ q - 1 by omega, show k + 1 + 1 ≤ q - 1 by omega,
        show k + 1 - (q - 1) = 0 by omega, show k + 1 + 1 - (q - 1) = 0 by omega]
  · run_simp []

/-- `(b, rmta)` of rmta after `n` steps over indices `off, off+1, …`. -/
def rmtaSt (beta : R) (off : Nat) (x : Nat → R) : Nat → R × R
  | 0 =>
    let alpha := c! 1 - beta
    let b := (c! 1 - alpha) * x 0 + x 0
    (b, (c! 1 - alpha) * x 0 + alpha * (x 0 + b))
  | n + 1 =>
    let alpha := c! 1 - beta
    let s := rmtaSt beta off x n
    let nb := (c! 1 - alpha) * s.1 + x (off + n)
    (nb, (c! 1 - alpha) * s.2 + alpha * (x (off + n) + nb - s.1))

theorem rmtaStart_ok {o : Nat → R} {p : Nat} (hc : toInt (o 0) = .ok (p : Int)) (hp : 1 ≤ p) :
    rmtaStart o = .ok ((p - 1 : Nat) : Int) := by
  have hr := toInt_range hc
  simp only [rmtaStart, hc, bind_ok]
  rw [i32_ok _ (by omega) (by omega)]; congr 1; omega

theorem rmta_run (o : Nat → R) (p : Nat) (hc : toInt (o 0) = .ok (p : Int)) (hp : 1 ≤ p) :
    Computes rmtaBatch o (p - 1) (fun x j =>
      (rmtaSt (o 1) (if p = 1 then 0 else 1) x (j + p - (if p = 1 then 0 else 1))).2) := by
  intro x N
  unfold rmtaBatch
  simp only [hc, bind_ok, rmtaStart_ok hc hp, length_pre, pure_eq]
  rw [if_neg (by omega)]
  split
  · rename_i h; simp [show N - (p - 1) = 0 by omega]
  run_simp [Int.toNat_zero]
  generalize hoff : (if p = 1 then 0 else 1) = off
  have h01 : off ≤ 1 := by subst hoff; split <;> omega
  have hop : off ≤ p - 1 := by subst hoff; split <;> omega
  have step : ∀ i, off ≤ i → rmtaSt (o 1) off x (i + 1 - off) =
      (let s := rmtaSt (o 1) off x (i - off)
       let nb := (c! 1 - (c! 1 - o 1)) * s.1 + x i
       (nb, (c! 1 - (c! 1 - o 1)) * s.2 + (c! 1 - o 1) * (x i + nb - s.1))) := by
    intro i hi
    rw [show i + 1 - off = (i - off) + 1 by omega, rmtaSt, show off + (i - off) = i by omega]
  have first : forUp 1 ((p : Int) - 1) (rmtaSt (o 1) off x 0) (fun i s => do
      let nb := (c! 1 - (c! 1 - o 1)) * s.1 + (← rd (pre x N) i)
      let rmta := (c! 1 - (c! 1 - o 1)) * s.2 + (c! 1 - o 1) * ((← rd (pre x N) i) + nb - s.1)
      return (nb, rmta)) = .ok (rmtaSt (o 1) off x (p - 1 - off)) := by
    by_cases h2 : p ≤ 2
    · rw [forUp_empty (by omega)]
      have : p - 1 - off = 0 := by subst hoff; split <;> omega
      rw [this]
    · have ho : off = 1 := by subst hoff; rw [if_neg (by omega)]
      have := forUp_bind (f := fun i s => do
          let nb := (c! 1 - (c! 1 - o 1)) * s.1 + (← rd (pre x N) i)
          let rmta := (c! 1 - (c! 1 - o 1)) * s.2 + (c! 1 - o 1) * ((← rd (pre x N) i) + nb - s.1)
          return (nb, rmta)) (k := fun s => .ok s) (lo := 1) (hi := (p : Int) - 1)
        (s := rmtaSt (o 1) off x 0) (res := .ok (rmtaSt (o 1) off x (p - 1 - off)))
        1 (p - 1) (fun i => rmtaSt (o 1) off x (i - off)) rfl (by omega) (by simp [ho]) (by omega)
        (by
          intro i h1 hi
          run_simp []
          rw [step i (by omega)]) rfl
      revert this
      generalize forUp _ _ _ _ = z
      cases z <;> simp
  simp only [pure_eq] at first
  have h0 : rmtaSt (o 1) off x 0 = ((c! 1 - (c! 1 - o 1)) * x 0 + x 0,
      (c! 1 - (c! 1 - o 1)) * x 0 + (c! 1 - o 1) * (x 0 + ((c! 1 - (c! 1 - o 1)) * x 0 + x 0))) := rfl
  rw [← h0, first, bind_ok]
  refine forUp_bind (p - 1) N (fun i => ((rmtaSt (o 1) off x (i - off)).1, (rmtaSt (o 1) off x (i - off)).2,
    pre (fun j => (rmtaSt (o 1) off x (j + p - off)).2) (i - (p - 1)))) (by omega) rfl ?_ (by omega) ?_ ?_
  · simp
  · intro i h1 hi
    run_simp []
    rw [pre_snoc (m := i + 1 - (p - 1)) (by omega)]
    · rw [step i (by omega)]
    · rw [show i - (p - 1) + p - off = i + 1 - off by omega, step i (by omega)]
  · run_simp []

end Verif
