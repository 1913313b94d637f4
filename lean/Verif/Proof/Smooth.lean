/- er, dwma, pwma, swma, t3, copp: the runs, in any arithmetic (helper lemmas). -/
import Verif.Model.Smooth
import Verif.Proof.Traj
import Verif.Proof.Sum
import Verif.Proof.Ema
import Verif.Proof.Window

set_option linter.unusedSectionVars false
set_option linter.unusedSimpArgs false
set_option linter.unusedVariables false

namespace Verif
section Any
variable {R : Type} [Num R]

/-! ### er -/

/-- Absolute price changes. -/
def erMove (x : Nat → R) (k : Nat) : R := CMath.fabs (x (k + 1) - x k)

/-- er, output `j`. -/
def erVal (p : Nat) (x : Nat → R) (j : Nat) : R :=
  if CMath.fabs (x (j + p) - x j) == c! 0 then c! 0
  else CMath.fabs (x (j + p) - x j) / (slideS (erMove x) p (j + (p - 1)) + erMove x (j + (p - 1)))

theorem er_run (o : Nat → R) (p : Nat) (hc : toInt (o 0) = .ok (p : Int)) (hp : 1 ≤ p) :
    Computes erBatch o p (erVal p) := by
  intro x N
  unfold erBatch
  simp only [hc, bind_ok, erStart, length_pre, pure_eq]
  rw [if_neg (by omega)]
  rcases Nat.eq_zero_or_pos N with h0 | h0
  · subst h0
    have h1 : upto 1 (p : Int) ((0 : Nat) : Int) = 1 := by unfold upto; omega
    rw [h1, forUp_empty (by omega), bind_ok, forUp_empty (by simp), bind_ok]
    simp
  refine forUp_bind 1 (max 1 (min p N)) (fun i => slideS (erMove x) p (i - 1)) rfl (by unfold upto; omega) rfl
    (by omega) ?_ ?_
  · intro i h1 h2
    obtain ⟨k, rfl⟩ : ∃ k, i = k + 1 := ⟨i - 1, by omega⟩
    rw [rd_at (k + 1) rfl (by omega), bind_ok, rd_at k (by omega) (by omega), bind_ok]
    simp only [Nat.add_sub_cancel, slideS, if_pos (show k < p - 1 by omega)]
    rfl
  refine forUp_bind (max 1 (min p N)) N (fun i => (slideS (erMove x) p (i - 1), pre (erVal p x) (i - p)))
    (by unfold upto; omega) rfl ?_ (by omega) ?_ ?_
  · rw [show max 1 (min p N) - p = 0 by omega, pre_zero]
  · intro i h1 h2
    obtain ⟨k, rfl⟩ : ∃ k, i = k + 1 := ⟨i - 1, by omega⟩
    rw [rd_at (k + 1) rfl (by omega), bind_ok, rd_at k (by omega) (by omega), bind_ok]
    simp only [bind_ok]
    rw [rd_at (k + 1 - p) (by omega) (by omega), bind_ok,
      wr_pre _ (erVal p x) (k + 1 - p) _ (by omega) ?_, bind_ok,
      rd_at (k + 1 - p + 1) (by omega) (by omega), bind_ok]
    · simp only [Nat.add_sub_cancel, slideS, if_neg (show ¬ k < p - 1 by omega), bind_ok]
      rw [show k + 1 + 1 - p = k + 1 - p + 1 by omega]
      rw [show k - (p - 1) = k + 1 - p by omega]
      rfl
    · simp only [erVal, Nat.add_sub_cancel]
      rw [show k + 1 - p + p = k + 1 by omega, show k + 1 - p + (p - 1) = k by omega]
      rfl
  · rfl

theorem erPhases_ordered (n : Int) : Phases.Ordered (erPhases (R := R) n) := by
  phases_ordered erPhases

theorem er_stream_run (o : Nat → R) (p : Nat) (hc : toInt (o 0) = .ok (p : Int)) (hp : 1 ≤ p) (hb : p < 2147483647) :
    (er (R := R)).StreamComputes o p (erVal p) := by
  refine streamComputes_traj (I := er) (k := (p : Int)) (s0 := ⟨c! 0, Ring.after (fun _ => c! 0) (p + 1) 0⟩) ?_
    (erPhases_ordered _) (fun x n => ⟨slideS (erMove x) p (n - 1), Ring.after x (p + 1) n⟩) (fun x => rfl) ?_
  · simp only [er, erNew, hc, erStart, bind_ok, pure_eq]
    rw [if_neg (by omega), i32_ok _ (by omega) (by omega), bind_ok, show (p : Int) + 1 = ((p + 1 : Nat) : Int) by omega,
      Ring.make_after (fun _ => c! 0) _ (by omega), bind_ok]
  · intro x n
    simp only [barStep, er, erPhases, List.find?]
    rcases Nat.eq_zero_or_pos n with h0 | h0
    · subst h0
      rw [decide_eq_true (by omega)]
      simp only [Ring.after_set x _ (Nat.succ_pos p) 0 (x 0) rfl, bind_ok, Ring.now_step, pure_eq]
      rw [if_pos (by omega)]
    obtain ⟨k, rfl⟩ : ∃ k, n = k + 1 := ⟨n - 1, by omega⟩
    rw [decide_eq_false (by omega)]
    have hg1 := Ring.now_get x (p + 1) (k + 1) 1 1 (by omega) (by omega) (by omega)
    simp only [Nat.add_sub_cancel] at hg1
    by_cases hlt : k + 1 < p
    · rw [decide_eq_true (by omega), if_pos hlt]
      simp only [Ring.after_set x _ (Nat.succ_pos p) (k + 1) (x (k + 1)) rfl, bind_ok, Ring.now_step, pure_eq,
        Ring.now_cur x _ (Nat.succ_pos p), hg1, Nat.add_sub_cancel, slideS, if_pos (show k < p - 1 by omega)]
      rfl
    · rw [decide_eq_false (by omega), if_neg hlt]
      have hgn := Ring.now_get x (p + 1) (k + 1) (p : Int) p (by omega) (by omega) (by omega)
      have hgm := Ring.now_get x (p + 1) (k + 1) ((p : Int) - 1) (p - 1) (by omega) (by omega) (by omega)
      simp only [Ring.after_set x _ (Nat.succ_pos p) (k + 1) (x (k + 1)) rfl, bind_ok, Ring.now_step, pure_eq,
        Ring.now_cur x _ (Nat.succ_pos p), hg1, hgn, hgm, Nat.add_sub_cancel, slideS,
        if_neg (show ¬ k < p - 1 by omega)]
      congr 2
      · congr 2
        unfold erMove
        rw [show k - (p - 1) = k + 1 - p by omega, show k + 1 - (p - 1) = k + 1 - p + 1 by omega]
      · simp only [erVal]
        rw [show k + 1 - p + p = k + 1 by omega, show k + 1 - p + (p - 1) = k by omega]
        rfl

/-- er_ref, output `j`. -/
def erRefVal (p : Nat) (x : Nat → R) (j : Nat) : R :=
  if CMath.fabs (x (j + p) - x j) == c! 0 then c! 0
  else CMath.fabs (x (j + p) - x j) / sumTo (fun k => erMove x (j + k)) p

theorem erRef_run (o : Nat → R) (p : Nat) (hc : toInt (o 0) = .ok (p : Int)) (hp : 1 ≤ p) (hb : p < 2147483647) :
    Computes erRef o p (erRefVal p) := by
  intro x N
  unfold erRef
  simp only [hc, bind_ok, erStart, length_pre, pure_eq]
  rw [if_neg (by omega), i32_ok _ (by omega) (by omega), bind_ok]
  by_cases hN : N ≤ p
  · rw [forUp_empty (by omega), bind_ok, show N - p = 0 by omega]; rfl
  refine forUp_bind (p + 1) (N + 1) (fun i => pre (erRefVal p x) (i - (p + 1))) (by omega) (by omega) (by simp)
    (by omega) ?_ (by rw [show N + 1 - (p + 1) = N - p by omega])
  intro i h1 h2
  obtain ⟨j, rfl⟩ : ∃ j, i = j + p + 1 := ⟨i - p - 1, by omega⟩
  rw [rd_at (j + p) (by omega) (by omega), bind_ok, rd_at j (by omega) (by omega), bind_ok]
  refine forUp_bind (j + 1) (j + p + 1) (fun q => sumTo (fun k => erMove x (j + k)) (q - (j + 1))) (by omega) (by omega)
    (by simp [sumTo]) (by omega) ?_ ?_
  · intro q h3 h4
    obtain ⟨k, rfl⟩ : ∃ k, q = j + 1 + k := ⟨q - (j + 1), by omega⟩
    rw [rd_at (j + 1 + k) rfl (by omega), bind_ok, rd_at (j + k) (by omega) (by omega), bind_ok,
      show j + 1 + k + 1 - (j + 1) = k + 1 by omega, show j + 1 + k - (j + 1) = k by omega]
    simp only [sumTo, erMove]
    rw [show j + 1 + k = j + k + 1 by omega]
  · rw [show j + p + 1 + 1 - (p + 1) = j + 1 by omega, show j + p + 1 - (p + 1) = j by omega,
      show j + p + 1 - (j + 1) = p by omega]
    exact wr_pre _ _ _ _ (by omega) rfl

/-! ### dwma -/

/-- numerator and sum of one weighted average inside dwma, before its input `i`. -/
def dwSt (p : Nat) (x : Nat → R) : Nat → R × R
  | 0 => (c! 0, c! 0)
  | i + 1 =>
    if i < p - 1 then ((dwSt p x i).1 + ((i + 1 : Int) : R) * x i, (dwSt p x i).2 + x i)
    else ((dwSt p x i).1 + ((p : Int) : R) * x i - ((dwSt p x i).2 + x i), (dwSt p x i).2 + x i - x (i - (p - 1)))

/-- One weighted average of dwma with denominator `d`. -/
def dwF (p : Nat) (d : R) (x : Nat → R) (j : Nat) : R :=
  ((dwSt p x (j + (p - 1))).1 + ((p : Int) : R) * x (j + (p - 1))) / d

/-- State of dwma before bar `n`. -/
def dwTraj (p : Nat) (d : R) (x : Nat → R) (n : Nat) : DwmaSt R :=
  ⟨(dwSt p x n).1, (dwSt p x n).2, (dwSt p (dwF p d x) (n - (p - 1))).1, (dwSt p (dwF p d x) (n - (p - 1))).2,
    Ring.after (dwF p d x) p (n - (p - 1))⟩

theorem dwWarm1_eq (p : Nat) (d : R) (x : Nat → R) (n : Nat) (h : n < p - 1) :
    dwTraj p d x (n + 1) = { dwTraj p d x n with
      numer1 := (dwTraj p d x n).numer1 + ((n + 1 : Int) : R) * x n, sum1 := (dwTraj p d x n).sum1 + x n } := by
  unfold dwTraj
  simp only [dwSt, if_pos h, show n + 1 - (p - 1) = 0 by omega, show n - (p - 1) = 0 by omega]

/-- State between the two averages of bar `k + (p - 1)`. -/
def dwMid (p : Nat) (d : R) (x : Nat → R) (k : Nat) : DwmaSt R :=
  ⟨(dwSt p x (k + (p - 1) + 1)).1, (dwSt p x (k + (p - 1) + 1)).2, (dwSt p (dwF p d x) k).1, (dwSt p (dwF p d x) k).2,
    Ring.now (dwF p d x) p k⟩

theorem dwFirst_ok (p : Nat) (hp : 1 ≤ p) (d : R) (x : Nat → R) (k : Nat) (old : M R) (ho : old = .ok (x k)) :
    dwmaFirst p d (dwTraj p d x (k + (p - 1))) (x (k + (p - 1))) old = .ok (dwMid p d x k) := by
  unfold dwmaFirst dwTraj dwMid
  simp only [Nat.add_sub_cancel]
  rw [Ring.after_set (dwF p d x) p hp k _ (by rw [dwF]), bind_ok, ho, bind_ok]
  simp only [dwSt, if_neg (show ¬ k + (p - 1) < p - 1 by omega), Nat.add_sub_cancel]
  rfl

theorem dwWarm_ok (p : Nat) (hp : 1 ≤ p) (d : R) (x : Nat → R) (k : Nat) (w : Int) (hw : w = (k : Int) + 1)
    (h : k < p - 1) : dwmaWarm w (dwMid p d x k) = .ok (dwTraj p d x (k + (p - 1) + 1)) := by
  subst hw
  unfold dwmaWarm dwTraj dwMid
  simp only [Ring.now_cur (dwF p d x) p hp, bind_ok, pure_eq, Ring.now_step]
  rw [show k + (p - 1) + 1 - (p - 1) = k + 1 by omega]
  simp only [dwSt, if_pos h]

theorem dwMain_ok (p : Nat) (hp : 1 ≤ p) (d : R) (x : Nat → R) (k : Nat) (h : p - 1 ≤ k) :
    dwmaMain p d (dwMid p d x k) = .ok (dwTraj p d x (k + (p - 1) + 1), dwF p d (dwF p d x) (k - (p - 1))) := by
  unfold dwmaMain dwTraj dwMid
  simp only [Ring.now_cur (dwF p d x) p hp, bind_ok, pure_eq, Ring.now_step]
  rw [Ring.now_get (dwF p d x) p k _ (p - 1) (by omega) (by omega) (by omega), bind_ok,
    show k + (p - 1) + 1 - (p - 1) = k + 1 by omega]
  have e : k - (p - 1) + (p - 1) = k := by omega
  simp only [dwSt, if_neg (show ¬ k < p - 1 by omega)]
  congr 2
  conv_rhs => rw [dwF, e]

theorem dwma_run (o : Nat → R) (p : Nat) (hc : toInt (o 0) = .ok (p : Int)) (hp : 1 ≤ p) (hb : p ≤ 1073741824)
    (hs : dwmaStart o = .ok ((2 * (p - 1) : Nat) : Int)) :
    Computes dwmaBatch o (2 * (p - 1)) (fun x => let d : R := (c! 1 + ((p : Int) : R)) * ((p : Int) : R) / c! 2
      dwF p d (dwF p d x)) := by
  intro x N
  unfold dwmaBatch
  simp only [hc, bind_ok, hs, length_pre, pure_eq]
  generalize hd : (c! 1 + ((p : Int) : R)) * ((p : Int) : R) / c! 2 = d
  rw [if_neg (by omega), Ring.make_after (dwF p d x) p hp, bind_ok, i32_ok _ (by omega) (by omega), bind_ok]
  refine forUp_bind 0 (min (p - 1) N) (fun i => dwTraj p d x i) rfl (by unfold upto; omega) ?_ (by omega) ?_ ?_
  · simp only [dwTraj, Nat.zero_sub]; rfl
  · intro i _ h2
    rw [rd_at i rfl (by omega), bind_ok, bind_ok, dwWarm1_eq _ _ _ _ (by omega)]
  refine forUp_bind (min (p - 1) N) (min (2 * (p - 1)) N) (fun i => dwTraj p d x i) (by unfold upto; omega)
    (by unfold upto; omega) rfl (by omega) ?_ ?_
  · intro i h1 h2
    obtain ⟨k, rfl⟩ : ∃ k, i = k + (p - 1) := ⟨i - (p - 1), by omega⟩
    rw [rd_at (k + (p - 1)) rfl (by omega), bind_ok,
      dwFirst_ok p hp d x k _ (rd_at k (by omega) (by omega)), bind_ok]
    exact dwWarm_ok p hp d x k _ (by omega) (by omega)
  refine forUp_bind (min (2 * (p - 1)) N) N
    (fun i => (dwTraj p d x i, pre (dwF p d (dwF p d x)) (i - 2 * (p - 1)))) (by unfold upto; omega) rfl ?_ (by omega)
    ?_ rfl
  · rw [show min (2 * (p - 1)) N - 2 * (p - 1) = 0 by omega, pre_zero]
  · intro i h1 h2
    obtain ⟨k, rfl⟩ : ∃ k, i = k + (p - 1) := ⟨i - (p - 1), by omega⟩
    rw [rd_at (k + (p - 1)) rfl (by omega), bind_ok]
    simp only []
    rw [dwFirst_ok p hp d x k _ (rd_at k (by omega) (by omega)), bind_ok, dwMain_ok p hp d x k (by omega), bind_ok,
      show k + (p - 1) - 2 * (p - 1) = k - (p - 1) by omega, wr_pre _ _ _ _ (by omega) rfl, bind_ok,
      show k + (p - 1) + 1 - 2 * (p - 1) = k - (p - 1) + 1 by omega]

theorem dwmaPhases_ordered (k : DwmaK R) (hk : 1 ≤ k.period) : Phases.Ordered (dwmaPhases k) := by
  phases_ordered dwmaPhases

theorem dwma_stream_run (o : Nat → R) (p : Nat) (hc : toInt (o 0) = .ok (p : Int)) (hp : 1 ≤ p)
    (hlt : ¬ o 0 < c! 1) (hs : dwmaStart o = .ok ((2 * (p - 1) : Nat) : Int)) :
    (dwma (R := R)).StreamComputes o (2 * (p - 1)) (fun x => let d : R := (c! 1 + o 0) * o 0 / c! 2
      dwF p d (dwF p d x)) := by
  generalize hd : (c! 1 + o 0) * o 0 / c! 2 = d
  refine streamComputes_traj (I := dwma) (k := ⟨p, d⟩) (s0 := ⟨Ring.after (fun _ => c! 0) p 0, dwTraj p d (fun _ => c! 0) 0⟩)
    ?_ (dwmaPhases_ordered _ (by simp; omega)) (fun x n => ⟨Ring.after x p n, dwTraj p d x n⟩) ?_ ?_
  · simp only [dwma, dwmaNew, hc, hs, bind_ok, pure_eq]
    rw [if_neg hlt, Ring.make_after (fun _ => c! 0) _ hp, bind_ok, bind_ok, hd]
    congr 3
    unfold dwTraj
    rw [Nat.zero_sub]
    rfl
  · intro x
    unfold dwTraj
    rw [Nat.zero_sub]; rfl
  · intro x n
    simp only [barStep, dwma, dwmaPhases, List.find?]
    by_cases h1 : n < p - 1
    · rw [decide_eq_true (by omega), if_pos (by omega)]
      simp only [Ring.after_set x _ hp n (x n) rfl, bind_ok, Ring.now_step, pure_eq]
      rw [dwWarm1_eq _ _ _ _ h1]
      rw [show (-((2 * (p - 1) : Nat) : Int) + (n : Int) + 2 * ((p : Int) - 1) + 1) = (n : Int) + 1 by omega]
    rw [decide_eq_false (by omega)]
    obtain ⟨k, rfl⟩ : ∃ k, n = k + (p - 1) := ⟨n - (p - 1), by omega⟩
    have hg := Ring.now_get x p (k + (p - 1)) ((p : Int) - 1) (p - 1) (by omega) (by omega) (by omega)
    rw [Nat.add_sub_cancel] at hg
    by_cases h2 : k < p - 1
    · rw [decide_eq_true (by omega), if_pos (by omega)]
      simp only [Ring.after_set x _ hp _ _ rfl, bind_ok, Ring.now_step, pure_eq]
      rw [dwFirst_ok p hp d x k _ hg, bind_ok, dwWarm_ok p hp d x k _ (by omega) h2, bind_ok]
    · rw [decide_eq_false (by omega), if_neg (by omega)]
      simp only [Ring.after_set x _ hp _ _ rfl, bind_ok, Ring.now_step, pure_eq]
      rw [dwFirst_ok p hp d x k _ hg, bind_ok, dwMain_ok p hp d x k (by omega), bind_ok]
      rw [show k + (p - 1) - 2 * (p - 1) = k - (p - 1) by omega]

/-! ### pwma -/

/-- Denominator of pwma. -/
def pwDen (p : Nat) (power : R) : R := sumTo (fun i => CMath.pow ((i + 1 : Int) : R) power) p

/-- Numerator of pwma, output `j`. -/
def pwNum (p : Nat) (power : R) (x : Nat → R) (j : Nat) : R :=
  sumTo (fun k => x (j + (p - 1) - k) * CMath.pow ((p - k : Int) : R) power) p

theorem pwma_run (o : Nat → R) (p : Nat) (hc : toInt (o 0) = .ok (p : Int)) (hp : 1 ≤ p)
    (hs : pwmaStart o = .ok ((p - 1 : Nat) : Int)) :
    Computes pwmaBatch o (p - 1) (fun x j => pwNum p (o 1) x j / pwDen p (o 1)) := by
  intro x N
  unfold pwmaBatch
  simp only [hc, bind_ok, hs, length_pre, pure_eq]
  rw [if_neg (by omega)]
  refine forUp_bind 0 (min p N) (fun i => sumTo (fun i => CMath.pow ((i + 1 : Int) : R) (o 1)) i) rfl (by omega) rfl
    (by omega) (fun i _ _ => rfl) ?_
  by_cases hN : N ≤ p - 1
  · rw [forUp_empty (by omega), bind_ok, show N - (p - 1) = 0 by omega]; rfl
  rw [show min p N = p by omega]
  refine forUp_bind (p - 1) N (fun i => pre (fun j => pwNum p (o 1) x j / pwDen p (o 1)) (i - (p - 1))) (by omega) rfl
    (by simp) (by omega) ?_ rfl
  intro i h1 h2
  refine forUp_bind 0 p (fun q => sumTo (fun k => x (i - k) * CMath.pow ((p - k : Int) : R) (o 1)) q) rfl rfl rfl
    (by omega) ?_ ?_
  · intro q _ h4
    rw [rd_at (i - q) (by omega) (by omega), bind_ok]
    rfl
  · rw [wr_pre _ _ _ _ (by omega) ?_, show i + 1 - (p - 1) = i - (p - 1) + 1 by omega]
    unfold pwNum
    rw [show i - (p - 1) + (p - 1) = i by omega]
    rfl

theorem pwmaPhases_ordered (k : PwmaK R) : Phases.Ordered (pwmaPhases k) := by
  phases_ordered pwmaPhases

theorem pwma_stream_run (o : Nat → R) (p : Nat) (hc : toInt (o 0) = .ok (p : Int)) (hp : 1 ≤ p) (hb : p < 2147483647)
    (hs : pwmaStart o = .ok ((p - 1 : Nat) : Int)) :
    (pwma (R := R)).StreamComputes o (p - 1) (fun x j => pwNum p (o 1) x j * (c! 1 / pwDen p (o 1))) := by
  refine streamComputes_traj (I := pwma) (k := ⟨p, o 1, c! 1 / pwDen p (o 1)⟩)
    (s0 := Ring.after (fun _ => c! 0) (p + 1) 0) ?_ (pwmaPhases_ordered _) (fun x n => Ring.after x (p + 1) n)
    (fun x => rfl) ?_
  · simp only [pwma, pwmaNew, hc, hs, bind_ok, pure_eq]
    rw [if_neg (by omega), i32_ok _ (by omega) (by omega), bind_ok, show (p : Int) + 1 = ((p + 1 : Nat) : Int) by omega,
      Ring.make_after (fun _ => c! 0) _ (by omega), bind_ok]
    exact forUp_bind 0 p (fun i => sumTo (fun i => CMath.pow ((i + 1 : Int) : R) (o 1)) i) rfl rfl rfl
      (by omega) (fun i _ _ => rfl) rfl
  · intro x n
    simp only [barStep, pwma, pwmaPhases, List.find?]
    by_cases h1 : n < p - 1
    · rw [decide_eq_true (by omega), if_pos h1]
      simp only [Ring.after_set x _ (Nat.succ_pos p) n (x n) rfl, bind_ok, Ring.now_step, pure_eq]
    · rw [decide_eq_false (by omega), if_neg h1]
      simp only [Ring.after_set x _ (Nat.succ_pos p) n (x n) rfl, bind_ok, Ring.now_step, pure_eq]
      refine forUp_bind 0 p (fun q => sumTo (fun k => x (n - k) * CMath.pow ((p - k : Int) : R) (o 1)) q) rfl rfl rfl
        (by omega) ?_ ?_
      · intro q _ h4
        rw [Ring.now_get x (p + 1) n (q : Int) q rfl (by omega) (by omega), bind_ok]
        rfl
      · unfold pwNum
        rw [show n - (p - 1) + (p - 1) = n by omega]

/-! ### swma -/

/-- Sine weight `j` (from the newest bar), as tabulated. -/
def swTab (j : Nat) : R := CMath.sin ((((j % 12 : Nat) + 1 : Int) : R) * CMath.acos (-(c! 1)) / c! 6)

/-- Sine weight `j`, as the reference computes it. -/
def swDirect (j : Nat) : R := CMath.sin (((j + 1 : Int) : R) * CMath.acos (-(c! 1)) / c! 6)

theorem swmaTable_rd (j : Nat) : rd (swmaTable (R := R)) (Int.tmod (j : Int) 12) = .ok (swTab j) := by
  have h : Int.tmod (j : Int) 12 = ((j % 12 : Nat) : Int) := by
    rw [Int.tmod_eq_emod_of_nonneg (by omega)]; omega
  have hl : j % 12 < 12 := Nat.mod_lt _ (by omega)
  rw [h]
  unfold rd swmaTable swTab
  rw [dif_pos ⟨by omega, by simp; omega⟩]
  simp only [Int.toNat_natCast, List.getElem_map, List.getElem_range]

/-- Weighted mean with weights `w` counted from the newest bar, output `j`. -/
def swVal (w : Nat → R) (p : Nat) (x : Nat → R) (j : Nat) : R :=
  sumTo (fun k => w k * x (j + (p - 1) - k)) p / sumTo w p

theorem swmaDenom_ok (p : Nat) : swmaDenom (R := R) (p : Int) = .ok (sumTo swTab p) := by
  unfold swmaDenom
  refine forUp_nat (a := 0) (b := p) (fun i => sumTo swTab i) (by omega) ?_
  intro i _ _
  rw [swmaTable_rd, bind_ok]; rfl

theorem swmaBad_ok (p : Nat) (hb : p < 2147483647) (h1 : p % 6 ≠ 0) (h2 : p % 6 ≠ 5) : swmaBad (p : Int) = .ok false := by
  unfold swmaBad
  rw [i32_ok _ (by omega) (by omega), bind_ok]
  rw [Int.tmod_eq_emod_of_nonneg (by omega), Int.tmod_eq_emod_of_nonneg (by omega)]
  rw [decide_eq_false (by omega), decide_eq_false (by omega)]
  rfl

theorem swmaBad_true (p : Nat) (hb : p < 2147483647) (h : p % 6 = 0 ∨ p % 6 = 5) : swmaBad (p : Int) = .ok true := by
  unfold swmaBad
  rw [i32_ok _ (by omega) (by omega), bind_ok]
  rw [Int.tmod_eq_emod_of_nonneg (by omega), Int.tmod_eq_emod_of_nonneg (by omega)]
  have : (decide ((p : Int) % 6 = 0) || decide (((p : Int) + 1) % 6 = 0)) = true := by
    rw [Bool.or_eq_true, decide_eq_true_iff, decide_eq_true_iff]; omega
  rw [this]; rfl

theorem swma_run (o : Nat → R) (p : Nat) (hc : toInt (o 0) = .ok (p : Int)) (hp : 1 ≤ p) (hb : p < 2147483647)
    (h1 : p % 6 ≠ 0) (h2 : p % 6 ≠ 5) : Computes swmaBatch o (p - 1) (swVal swTab p) := by
  intro x N
  unfold swmaBatch
  simp only [hc, bind_ok, swmaStart, startM1_ok hc hp, length_pre, pure_eq, swmaBad_ok p hb h1 h2, swmaDenom_ok]
  rw [if_neg (by omega), if_neg (by simp)]
  by_cases hN : N ≤ p - 1
  · rw [forUp_empty (by omega), bind_ok, show N - (p - 1) = 0 by omega]; rfl
  refine forUp_bind (p - 1) N (fun i => pre (swVal swTab p x) (i - (p - 1))) (by omega) rfl
    (by simp) (by omega) ?_ rfl
  intro i h3 h4
  refine forUp_bind 0 p (fun q => sumTo (fun k => swTab k * x (i - k)) q) rfl rfl rfl (by omega) ?_ ?_
  · intro q _ h4
    rw [swmaTable_rd, bind_ok, rd_at (i - q) (by omega) (by omega), bind_ok]
    rfl
  · rw [wr_pre _ _ _ _ (by omega) ?_, show i + 1 - (p - 1) = i - (p - 1) + 1 by omega]
    unfold swVal
    rw [show i - (p - 1) + (p - 1) = i by omega]

theorem swmaRef_run (o : Nat → R) (p : Nat) (hc : toInt (o 0) = .ok (p : Int)) (hp : 1 ≤ p) (hb : p < 2147483647)
    (h1 : p % 6 ≠ 0) (h2 : p % 6 ≠ 5) : Computes swmaRef o (p - 1) (swVal swDirect p) := by
  intro x N
  unfold swmaRef
  simp only [hc, bind_ok, swmaStart, startM1_ok hc hp, length_pre, pure_eq, swmaBad_ok p hb h1 h2]
  rw [if_neg (by omega), if_neg (by simp)]
  by_cases hN : N ≤ p - 1
  · rw [forUp_empty (by omega), bind_ok, show N - (p - 1) = 0 by omega]; rfl
  refine forUp_bind (p - 1) N (fun i => pre (swVal swDirect p x) (i - (p - 1))) (by omega) rfl
    (by simp) (by omega) ?_ rfl
  intro i h3 h4
  refine forUp_bind 0 p (fun q => (sumTo (fun k => swDirect k * x (i - k)) q, sumTo swDirect q)) rfl rfl rfl
    (by omega) ?_ ?_
  · intro q _ h4
    rw [rd_at (i - q) (by omega) (by omega), bind_ok]
    rfl
  · rw [wr_pre _ _ _ _ (by omega) ?_, show i + 1 - (p - 1) = i - (p - 1) + 1 by omega]
    unfold swVal
    rw [show i - (p - 1) + (p - 1) = i by omega]

theorem swmaPhases_ordered (k : SwmaK R) : Phases.Ordered (swmaPhases k) := by
  phases_ordered swmaPhases

theorem swma_stream_run (o : Nat → R) (p : Nat) (hc : toInt (o 0) = .ok (p : Int)) (hp : 1 ≤ p) (hb : p < 2147483647)
    (h1 : p % 6 ≠ 0) (h2 : p % 6 ≠ 5) : (swma (R := R)).StreamComputes o (p - 1) (swVal swTab p) := by
  refine streamComputes_traj (I := swma) (k := ⟨p, sumTo swTab p⟩)
    (s0 := Ring.after (fun _ => c! 0) p 0) ?_ (swmaPhases_ordered _) (fun x n => Ring.after x p n)
    (fun x => rfl) ?_
  · simp only [swma, swmaNew, hc, bind_ok, pure_eq, swmaStart, startM1_ok hc hp, swmaBad_ok p hb h1 h2, swmaDenom_ok]
    rw [if_neg (by omega), if_neg (by simp), Ring.make_after (fun _ => c! 0) _ (by omega), bind_ok]
  · intro x n
    simp only [barStep, swma, swmaPhases, List.find?]
    by_cases h1 : n < p - 1
    · rw [decide_eq_true (by omega), if_pos h1]
      simp only [Ring.after_set x _ hp n (x n) rfl, bind_ok, Ring.now_step, pure_eq]
    · rw [decide_eq_false (by omega), if_neg h1]
      simp only [Ring.after_set x _ hp n (x n) rfl, bind_ok, Ring.now_step, pure_eq]
      refine forUp_bind 0 p (fun q => sumTo (fun k => swTab k * x (n - k)) q) rfl rfl rfl (by omega) ?_ ?_
      · intro q _ h4
        rw [swmaTable_rd, bind_ok, Ring.now_get x p n (q : Int) q rfl (by omega) (by omega), bind_ok]
        rfl
      · unfold swVal
        rw [show n - (p - 1) + (p - 1) = n by omega]

/-! ### t3 -/

/-- State of t3 after bar `n`. -/
def t3Traj (period v : R) (x : Nat → R) : Nat → T3St R
  | 0 => t3Init (x 0)
  | n + 1 => t3Step period v (t3Traj period v x n) (x (n + 1))

theorem t3_run (o : Nat → R) (h0 : ¬ o 0 < c! 1) (h1 : ¬ o 1 < c! 0) :
    Computes t3Batch o 0 (fun x j => (t3Traj (o 0) (o 1) x j).l3.gd) := by
  intro x N
  unfold t3Batch
  simp only [t3Start, bind_ok, length_pre, pure_eq]
  rw [if_neg h0, if_neg h1]
  rcases N with _ | N
  · rw [forUp_empty (by simp [upto]), bind_ok, forUp_empty (by simp [upto]), bind_ok]; rfl
  refine forUp_bind 0 1 (fun i => ((if i = 0 then none else some (t3Traj (o 0) (o 1) x (i - 1))),
    pre (fun j => (t3Traj (o 0) (o 1) x j).l3.gd) i)) rfl (by unfold upto; omega) rfl (by omega) ?_ ?_
  · intro i _ h
    obtain rfl : i = 0 := by omega
    rw [rd_at 0 rfl (by omega), bind_ok]
    simp only []
    rw [wr_pre _ _ _ _ (by omega) (by rfl), bind_ok]
    rfl
  refine forUp_bind 1 (N + 1) (fun i => ((if i = 0 then none else some (t3Traj (o 0) (o 1) x (i - 1))),
    pre (fun j => (t3Traj (o 0) (o 1) x j).l3.gd) i)) (by unfold upto; omega) rfl rfl (by omega) ?_ rfl
  intro i h2 h3
  obtain ⟨k, rfl⟩ : ∃ k, i = k + 1 := ⟨i - 1, by omega⟩
  simp only [if_neg (Nat.succ_ne_zero k), getVar, bind_ok, Nat.add_sub_cancel]
  rw [rd_at (k + 1) rfl (by omega), bind_ok, wr_pre _ _ _ _ (by omega) (by rfl), bind_ok, if_neg (by omega)]
  rfl

theorem t3Phases_ordered (k : R × R) : Phases.Ordered (t3Phases k) := by
  phases_ordered t3Phases

theorem t3_stream_run (o : Nat → R) (h0 : ¬ o 0 < c! 1) (h1 : ¬ o 1 < c! 0) :
    (t3 (R := R)).StreamComputes o 0 (fun x j => (t3Traj (o 0) (o 1) x j).l3.gd) := by
  refine streamComputes_traj (I := t3) (k := (o 0, o 1)) (s0 := t3Init (c! 0)) ?_ (t3Phases_ordered _)
    (fun x n => if n = 0 then t3Init (c! 0) else t3Traj (o 0) (o 1) x (n - 1)) (fun x => rfl) ?_
  · simp only [t3, t3New, t3Start, bind_ok, pure_eq]
    rw [if_neg h0, if_neg h1]
    rfl
  · intro x n
    simp only [barStep, t3, t3Phases, List.find?]
    rcases n with _ | k
    · rw [decide_eq_true (by omega)]
      rfl
    · rw [decide_eq_false (by omega)]
      simp only [if_neg (Nat.succ_ne_zero k), if_neg (Nat.not_lt_zero (k + 1)), pure_eq]
      rfl

/-! ### copp -/

/-- Mean rate of change over the two lags at bar `i`, in percent. -/
def coppSig (s l : Nat) (x : Nat → R) (i : Nat) : R :=
  if x (i - s) == c! 0 || x (i - l) == c! 0 then c! 0
  else ((x i / x (i - s) - c! 1) + (x i / x (i - l) - c! 1)) / c! 2 * c! 100

/-- The changes as they are stored: nothing before the longer lag. -/
def coppHist (s l : Nat) (x : Nat → R) (i : Nat) : R := if i < l then c! 0 else coppSig s l x i

def coppTraj (s l w : Nat) (x : Nat → R) (n : Nat) : CoppS R :=
  ⟨Ring.after x (l + 1) n, Ring.after (coppHist s l x) (w + 1) n,
    (wmaSt w (fun m => coppSig s l x (m + l)) (n - l)).2, (wmaSt w (fun m => coppSig s l x (m + l)) (n - l)).1⟩

def coppMid (s l w : Nat) (x : Nat → R) (n : Nat) : CoppS R :=
  ⟨Ring.now x (l + 1) n, Ring.now (coppHist s l x) (w + 1) n,
    (wmaSt w (fun m => coppSig s l x (m + l)) (n - l)).2, (wmaSt w (fun m => coppSig s l x (m + l)) (n - l)).1⟩

def coppVal (s l w : Nat) (d : R) (x : Nat → R) (j : Nat) : R :=
  ((wmaSt w (fun m => coppSig s l x (m + l)) (j + (w - 1))).1 + coppSig s l x (j + (w - 1) + l) * ((w : Int) : R)) * d

theorem coppFill_ok (s l w : Nat) (x : Nat → R) (n : Nat) (h : n < l) :
    coppFill (coppTraj s l w x n) (x n) = .ok (coppTraj s l w x (n + 1)) := by
  unfold coppFill coppTraj
  simp only [Ring.after_set x _ (Nat.succ_pos l) n (x n) rfl, bind_ok, Ring.now_step, pure_eq]
  rw [Ring.after_skip]
  · simp only [show n - l = 0 by omega, show n + 1 - l = 0 by omega]
  · intro k hk
    simp [coppHist, show k < l by omega]

theorem coppRoc_ok (s l w : Nat) (hs : s ≤ l) (x : Nat → R) (n : Nat) (h : l ≤ n) :
    coppRoc s l (coppTraj s l w x n) (x n) = .ok (coppMid s l w x n) := by
  unfold coppRoc coppTraj coppMid
  simp only [Ring.after_set x _ (Nat.succ_pos l) n (x n) rfl, bind_ok, pure_eq,
    Ring.now_get x (l + 1) n (s : Int) s rfl (by omega) (by omega),
    Ring.now_get x (l + 1) n (l : Int) l rfl (by omega) (by omega), Ring.now_cur x _ (Nat.succ_pos l)]
  rw [Ring.after_set (coppHist s l x) _ (Nat.succ_pos w) n _ ?_, bind_ok]
  exact (if_neg (show ¬ n < l by omega)).symm

theorem coppWarm_ok (s l w : Nat) (x : Nat → R) (n : Nat) (wt : R) (h : l ≤ n) (h2 : n < l + (w - 1))
    (hw : wt = (((n - l : Nat) + 1 : Int) : R)) :
    coppWarm wt (coppMid s l w x n) = .ok (coppTraj s l w x (n + 1)) := by
  subst hw
  obtain ⟨k, rfl⟩ : ∃ k, n = k + l := ⟨n - l, by omega⟩
  unfold coppWarm coppTraj coppMid
  simp only [Ring.now_cur (coppHist s l x) _ (Nat.succ_pos w), bind_ok, pure_eq, Ring.now_step]
  rw [show k + l + 1 - l = k + 1 by omega, Nat.add_sub_cancel]
  simp only [wmaSt, if_pos (show k < w - 1 by omega), coppHist, if_neg (show ¬ k + l < l by omega)]

theorem coppMain_ok (s l w : Nat) (hw : 1 ≤ w) (d : R) (x : Nat → R) (n : Nat) (wt : R) (h : l + (w - 1) ≤ n)
    (hwt : wt = ((w : Int) : R)) :
    coppMain wt d ((w : Int) - 1) (coppMid s l w x n) =
      .ok (coppTraj s l w x (n + 1), coppVal s l w d x (n - (l + (w - 1)))) := by
  subst hwt
  obtain ⟨k, rfl⟩ : ∃ k, n = k + (w - 1) + l := ⟨n - (l + (w - 1)), by omega⟩
  unfold coppMain coppTraj coppMid coppVal
  simp only [Ring.now_cur (coppHist s l x) _ (Nat.succ_pos w), bind_ok, pure_eq, Ring.now_step]
  rw [Ring.now_get (coppHist s l x) (w + 1) _ ((w : Int) - 1) (w - 1) (by omega) (by omega) (by omega), bind_ok,
    show k + (w - 1) + l + 1 - l = k + (w - 1) + 1 by omega, show k + (w - 1) + l - l = k + (w - 1) by omega,
    show k + (w - 1) + l - (l + (w - 1)) = k by omega, show k + (w - 1) + l - (w - 1) = k + l by omega]
  simp only [wmaSt, if_neg (show ¬ k + (w - 1) < w - 1 by omega), coppHist, if_neg (show ¬ k + l < l by omega),
    if_neg (show ¬ k + (w - 1) + l < l by omega), Nat.add_sub_cancel]

theorem coppPhases_ordered (k : CoppK R) : Phases.Ordered (coppPhases k) := by
  phases_ordered coppPhases

section Exact
variable [IntExact R]

theorem toInt_cast' {v : R} {p : Int} (h : v = ((p : Int) : R)) (hb : -2147483648 ≤ p ∧ p ≤ 2147483647) :
    toInt v = .ok p := by rw [h, toInt_cast p hb]

theorem coppStart_ok (o : Nat → R) (l w : Nat) (h1 : o 1 = ((l : Int) : R)) (h2 : o 2 = ((w : Int) : R)) (hw : 1 ≤ w)
    (hb : l + w ≤ 2147483647) : coppStart o = .ok ((l + (w - 1) : Nat) : Int) := by
  unfold coppStart
  rw [h1, h2, IntExact.add _ _ (by unfold Small; omega) (by unfold Small; omega) (by unfold Small; omega),
    IntExact.sub _ _ (by unfold Small; omega) (by unfold Small; omega) (by unfold Small; omega),
    toInt_cast _ (by omega)]
  congr 1; omega

theorem copp_run (o : Nat → R) (s l w : Nat) (h0 : o 0 = ((s : Int) : R)) (h1 : o 1 = ((l : Int) : R))
    (h2 : o 2 = ((w : Int) : R)) (hs : 1 ≤ s) (hl : s ≤ l) (hw : 1 ≤ w) (hb : l + w ≤ 2147483646) :
    Computes coppBatch o (l + (w - 1)) (coppVal s l w (c! 1 / (((w : Int) : R) * (((w : Int) : R) + c! 1) / c! 2))) := by
  intro x N
  unfold coppBatch
  have hbad : ¬ coppBad o := by
    unfold coppBad
    rw [h0, h1, h2, IntExact.lt _ _ (by omega) (by unfold Small; omega),
      IntExact.lt _ _ (by omega) (by unfold Small; omega),
      IntExact.lt _ _ (by omega) (by unfold Small; omega)]
    omega
  have hlt : ¬ o 1 < o 0 := by
    rw [h0, h1, IntExact.lt _ _ (by omega) (by unfold Small; omega)]; omega
  rw [if_neg hbad, if_neg hlt, coppStart_ok o l w h1 h2 hw (by omega)]
  simp only [bind_ok, length_pre, pure_eq]
  have e1 : o 1 + c! 1 = (((l + 1 : Nat) : Int) : R) := by
    rw [h1, IntExact.add _ _ (by unfold Small; omega) (by unfold Small; omega) (by unfold Small; omega)]; rfl
  have e2 : o 2 + c! 1 = (((w + 1 : Nat) : Int) : R) := by
    rw [h2, IntExact.add _ _ (by unfold Small; omega) (by unfold Small; omega) (by unfold Small; omega)]; rfl
  have e3 : o 1 + o 2 - c! 1 = (((l + (w - 1) : Nat) : Int) : R) := by
    rw [h1, h2, IntExact.add _ _ (by unfold Small; omega) (by unfold Small; omega) (by unfold Small; omega),
      IntExact.sub _ _ (by unfold Small; omega) (by unfold Small; omega) (by unfold Small; omega)]
    congr 1; omega
  have e4 : o 2 - c! 1 = (((w : Int) - 1 : Int) : R) := by
    rw [h2, IntExact.sub _ _ (by unfold Small; omega) (by unfold Small; omega) (by unfold Small; omega)]
  split
  · rename_i h; simp [show N - (l + (w - 1)) = 0 by omega]
  rw [toInt_cast' e1 (by omega), bind_ok, Ring.make_after x (l + 1) (by omega), bind_ok, toInt_cast' e2 (by omega), bind_ok,
    Ring.make_after (coppHist s l x) (w + 1) (by omega), bind_ok]
  have e5 : o 2 * (o 2 + c! 1) = ((w : Int) : R) * (((w : Int) : R) + c! 1) := by rw [h2]
  rw [e5]
  generalize hd : c! 1 / (((w : Int) : R) * (((w : Int) : R) + c! 1) / c! 2) = d
  refine forUp_bind 0 N (fun i => (coppTraj s l w x i, pre (coppVal s l w d x) (i - (l + (w - 1))))) rfl rfl ?_ (by omega)
    ?_ rfl
  · simp only [coppTraj, Nat.zero_sub, pre_zero]; rfl
  intro i _ hi
  rw [rd_at i rfl hi, bind_ok, toInt_cast' h0 (by omega), toInt_cast' h1 (by omega), toInt_cast' e4 (by omega)]
  simp only [bind_ok]
  have c1 : (((i : Int) : R) < o 1) ↔ i < l := by
    rw [h1, IntExact.lt _ _ (by omega) (by unfold Small; omega)]; omega
  have c2 : (((i : Int) : R) < o 1 + o 2 - c! 1) ↔ i < l + (w - 1) := by
    rw [e3, IntExact.lt _ _ (by omega) (by unfold Small; omega)]; omega
  by_cases hi1 : i < l
  · rw [if_pos (c1.2 hi1), coppFill_ok s l w x i hi1, bind_ok, show i + 1 - (l + (w - 1)) = i - (l + (w - 1)) by omega]
  rw [if_neg (fun h => hi1 (c1.1 h))]
  by_cases hi2 : i < l + (w - 1)
  · rw [if_pos (c2.2 hi2), coppRoc_ok s l w hl x i (by omega), bind_ok, coppWarm_ok s l w x i _ (by omega) hi2 ?_, bind_ok,
      show i + 1 - (l + (w - 1)) = i - (l + (w - 1)) by omega]
    rw [h1, IntExact.sub _ _ (by unfold Small; omega) (by unfold Small; omega) (by unfold Small; omega)]
    congr 1; omega
  · rw [if_neg (fun h => hi2 (c2.1 h)), coppRoc_ok s l w hl x i (by omega), bind_ok,
      coppMain_ok s l w hw d x i _ (by omega) h2, bind_ok]
    simp only []
    rw [wr_pre _ _ _ _ (by omega) (by rfl), bind_ok, show i + 1 - (l + (w - 1)) = i - (l + (w - 1)) + 1 by omega]

theorem copp_stream_run (o : Nat → R) (s l w : Nat) (h0 : o 0 = ((s : Int) : R)) (h1 : o 1 = ((l : Int) : R))
    (h2 : o 2 = ((w : Int) : R)) (hs : 1 ≤ s) (hl : s ≤ l) (hw : 1 ≤ w) (hb : l + w ≤ 2147483646)
    (hb2 : w * (w + 1) ≤ 2147483647) :
    (copp (R := R)).StreamComputes o (l + (w - 1))
      (coppVal s l w (c! 1 / ((Int.tdiv (w * (w + 1)) 2 : Int) : R))) := by
  generalize hd : (c! 1 / ((Int.tdiv (w * (w + 1)) 2 : Int) : R)) = d
  have hb2' : (w : Int) * (w + 1) ≤ 2147483647 := by exact_mod_cast hb2
  have hb0 : (0 : Int) ≤ (w : Int) * (w + 1) := by positivity
  have hbad : ¬ coppBad o := by
    unfold coppBad
    rw [h0, h1, h2, IntExact.lt _ _ (by omega) (by unfold Small; omega),
      IntExact.lt _ _ (by omega) (by unfold Small; omega),
      IntExact.lt _ _ (by omega) (by unfold Small; omega)]
    omega
  refine streamComputes_traj (I := copp) (k := ⟨s, l, w, d⟩)
    (s0 := ⟨Ring.after (fun _ => c! 0) (l + 1) 0, Ring.after (fun _ => c! 0) (w + 1) 0, c! 0, c! 0⟩)
    ?_ (coppPhases_ordered _) (fun x n => coppTraj s l w x n) ?_ ?_
  · simp only [copp, coppNew, toInt_cast' h0 (by omega), toInt_cast' h1 (by omega), toInt_cast' h2 (by omega), bind_ok,
      pure_eq, coppStart_ok o l w h1 h2 hw (by omega)]
    rw [if_neg hbad, if_neg (by omega), i32_ok _ (by omega) (by omega), bind_ok, i32_ok _ (by omega) hb2', bind_ok,
      i32_ok _ (by omega) (by omega), bind_ok, show (l : Int) + 1 = ((l + 1 : Nat) : Int) by omega,
      Ring.make_after (fun _ => c! 0) _ (by omega), bind_ok]
    have hw1 : Ring.make (R := R) ((w : Int) + 1) = .ok (Ring.after (fun _ => c! 0) (w + 1) 0) :=
      Ring.make_after (fun _ => c! 0) (w + 1) (by omega)
    rw [hw1, bind_ok, hd]
  · intro x
    simp only [coppTraj, Nat.zero_sub]; rfl
  · intro x n
    simp only [barStep, copp, coppPhases, List.find?]
    by_cases hi1 : n < l
    · rw [decide_eq_true (by omega), if_pos (by omega)]
      simp only []
      rw [coppFill_ok s l w x n hi1, bind_ok]
      rfl
    rw [decide_eq_false (by omega)]
    by_cases hi2 : n < l + (w - 1)
    · rw [decide_eq_true (by omega), if_pos hi2]
      simp only []
      rw [coppRoc_ok s l w hl x n (by omega), bind_ok, coppWarm_ok s l w x n _ (by omega) hi2 ?_, bind_ok]
      · rfl
      · congr 1; omega
    · rw [decide_eq_false (by omega), if_neg hi2]
      simp only []
      rw [coppRoc_ok s l w hl x n (by omega), bind_ok, coppMain_ok s l w hw d x n _ (by omega) rfl, bind_ok]
      rfl
end Exact

end Any
end Verif
