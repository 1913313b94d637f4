/- psar, kama, vidya: runs in any arithmetic (helper lemmas). -/
import Verif.Model.Adaptive
import Verif.Proof.Window
import Verif.Proof.Volume
import Verif.Proof.Stats

namespace Verif
set_option linter.unusedSectionVars false
set_option linter.unusedSimpArgs false
variable {R : Type} [Num R]

/-- psarBar as a function of the bars, without reads. -/
def psarNext (step max : R) (x : Nat → HL R) (i : Nat) (s : Psar R) : Psar R :=
  let sar := (s.extreme - s.sar) * s.accel + s.sar
  let b := x i
  let s : Psar R := if s.lng then
      let sar := if 2 ≤ i then (if (x (i - 2)).low < sar then (x (i - 2)).low else sar) else sar
      { lng := s.lng,
        sar := if (x (i - 1)).low < sar then (x (i - 1)).low else sar,
        extreme := if s.extreme < b.high then b.high else s.extreme,
        accel := if s.accel < max ∧ s.extreme < b.high then (if max < s.accel + step then max else s.accel + step) else s.accel }
    else
      let sar := if 2 ≤ i then (if sar < (x (i - 2)).high then (x (i - 2)).high else sar) else sar
      { lng := s.lng,
        sar := if sar < (x (i - 1)).high then (x (i - 1)).high else sar,
        extreme := if b.low < s.extreme then b.low else s.extreme,
        accel := if s.accel < max ∧ b.low < s.extreme then (if max < s.accel + step then max else s.accel + step) else s.accel }
  if (s.lng ∧ b.low < s.sar) ∨ (¬ s.lng ∧ s.sar < b.high) then
    { lng := !s.lng, sar := s.extreme, extreme := if s.lng then b.low else b.high, accel := step }
  else s

theorem psarBar_ok (step max : R) (x : Nat → HL R) (N i : Nat) (h1 : 1 ≤ i) (hi : i < N) (s : Psar R) :
    psarBar step max (pre x N) i s = .ok (psarNext step max x i s) := by
  unfold psarBar psarNext
  rw [rd_pre_nat _ _ _ hi, bind_ok]
  by_cases h2 : 2 ≤ i
  · simp only [rd_at (x := x) (n := N) (i := (i : Int) - 1) (i - 1) (by omega) (by omega),
      rd_at (x := x) (n := N) (i := (i : Int) - 2) (i - 2) (by omega) (by omega), bind_ok, pure_eq,
      if_pos h2, if_pos (show (2 : Int) ≤ i by omega)]
    cases s.lng <;> simp only [if_true, if_false, bind_ok, Bool.false_eq_true] <;> exact (apply_ite Except.ok _ _ _).symm
  · simp only [rd_at (x := x) (n := N) (i := (i : Int) - 1) (i - 1) (by omega) (by omega), bind_ok, pure_eq,
      if_neg h2, if_neg (show ¬ (2 : Int) ≤ i by omega)]
    cases s.lng <;> simp only [if_true, if_false, bind_ok, Bool.false_eq_true] <;> exact (apply_ite Except.ok _ _ _).symm

/-- The state after bar `i`. -/
def psarSt (step max : R) (x : Nat → HL R) : Nat → Psar R
  | 0 => psarInit step (x 0) (x 1)
  | i + 1 => psarNext step max x (i + 1) (psarSt step max x i)

theorem psar_run (o : Nat → R) (h0 : ¬ o 0 ≤ c! 0) (h1 : ¬ o 1 ≤ o 0) :
    Computes psarBatch o 1 (fun x j => (psarSt (o 0) (o 1) x (j + 1)).sar) := by
  intro x N
  unfold psarBatch
  simp only [bind_ok, psarStart, length_pre, pure_eq]
  rw [if_neg h0, if_neg h1]
  split
  · rename_i h; simp [show N - 1 = 0 by omega]
  · rw [rd_zero _ _ (by omega), bind_ok, rd_at 1 (by omega) (by omega), bind_ok]
    refine forUp_bind 1 N (fun i => (psarSt (o 0) (o 1) x (i - 1),
      pre (fun j => (psarSt (o 0) (o 1) x (j + 1)).sar) (i - 1))) rfl rfl rfl (by omega) ?_ ?_
    · intro i h1 hi
      obtain ⟨k, rfl⟩ : ∃ k, i = k + 1 := ⟨i - 1, by omega⟩
      simp only [Nat.add_sub_cancel, psarBar_ok _ _ x N (k + 1) h1 hi, bind_ok]
      rw [wr_pre _ _ _ _ (by omega) (by rfl)]
      rfl
    · run_simp []

/-- Absolute move into bar `k+1`. -/
def absMove (x : Nat → R) (k : Nat) : R := CMath.fabs (x (k + 1) - x k)

/-- The smoothing weight of kama at bar `j + p`. -/
def kamaSc (p : Nat) (x : Nat → R) (j : Nat) : R :=
  let sum := slide (absMove x) p (j + p)
  let er : R := if sum == c! 0 then c! 1 else CMath.fabs (x (j + p) - x j) / sum
  CMath.pow (er * (c! 2 / (c! 2 + c! 1) - c! 2 / (c! 30 + c! 1)) + c! 2 / (c! 30 + c! 1)) (c! 2)

def kamaRec (p : Nat) (x : Nat → R) : Nat → R
  | 0 => x (p - 1)
  | j + 1 => kamaRec p x j + kamaSc p x j * (x (j + p) - kamaRec p x j)

theorem kama_run (o : Nat → R) (p : Nat) (hc : toInt (o 0) = .ok (p : Int)) (hp : 1 ≤ p) :
    Computes kamaBatch o (p - 1) (kamaRec p) := by
  intro x N
  unfold kamaBatch
  simp only [hc, bind_ok, kamaStart, startM1_ok hc hp, length_pre, pure_eq]
  rw [if_neg (by omega)]
  split
  · rename_i h; simp [show N - (p - 1) = 0 by omega]
  · refine forUp_bind 1 p (fun i => slide (absMove x) p (i - 1)) rfl rfl rfl (by omega) ?_ ?_
    · intro i h1 hi
      obtain ⟨k, rfl⟩ : ∃ k, i = k + 1 := ⟨i - 1, by omega⟩
      rw [rd_pre_nat _ _ _ (by omega), bind_ok, rd_at k (by omega) (by omega), bind_ok]
      simp only [Nat.add_sub_cancel, slide, if_pos (show k < p by omega), absMove]
    rw [rd_at (p - 1) (by omega) (by omega), bind_ok, wr_ok _ _ _ (by simp; omega), bind_ok]
    refine forUp_bind p N (fun i => (slide (absMove x) p (i - 1), kamaRec p x (i - p), pre (kamaRec p x) (i - p + 1)))
      rfl rfl (by simp [kamaRec, pre_succ]) (by omega) ?_ ?_
    · intro i h1 hi
      obtain ⟨j, rfl⟩ : ∃ j, i = j + p := ⟨i - p, by omega⟩
      have e : (if (p : Int) < ((j + p : Nat) : Int) then (do
          let c ← rd (pre x N) (((j + p : Nat) : Int) - p)
          let d ← rd (pre x N) (((j + p : Nat) : Int) - p - 1)
          Except.ok (slide (absMove x) p (j + p - 1) + CMath.fabs (x (j + p) - x (j + p - 1)) - CMath.fabs (c - d)))
          else (Except.ok (slide (absMove x) p (j + p - 1) + CMath.fabs (x (j + p) - x (j + p - 1))) : M R)) =
          .ok (slide (absMove x) p (j + p)) := by
        cases j with
        | zero =>
          rw [if_neg (by omega)]
          obtain ⟨q, rfl⟩ : ∃ q, p = q + 1 := ⟨p - 1, by omega⟩
          rw [Nat.zero_add, Nat.add_sub_cancel, slide, if_pos (Nat.lt_succ_self q)]; rfl
        | succ j =>
          rw [if_pos (by omega), rd_at (j + 1) (by omega) (by omega), bind_ok, rd_at j (by omega) (by omega), bind_ok]
          rw [show j + 1 + p = j + p + 1 by omega, Nat.add_sub_cancel, slide, if_neg (by omega), Nat.add_sub_cancel]
          simp only [absMove]
      rw [rd_pre_nat _ _ _ hi, bind_ok, rd_at (j + p - 1) (by omega) (by omega), bind_ok, e, bind_ok]
      have e2 : (if (slide (absMove x) p (j + p) == c! 0) = true then (Except.ok (c! 1) : M R) else (do
          let c ← rd (pre x N) (((j + p : Nat) : Int) - p)
          Except.ok (CMath.fabs (x (j + p) - c) / slide (absMove x) p (j + p)))) =
          .ok (if (slide (absMove x) p (j + p) == c! 0) = true then c! 1 else
            CMath.fabs (x (j + p) - x j) / slide (absMove x) p (j + p)) := by
        rw [rd_at j (by omega) (by omega), bind_ok]
        split <;> rfl
      rw [e2, bind_ok]
      simp only [Nat.add_sub_cancel]
      rw [wr_pre _ _ _ _ (by omega) (by rfl), bind_ok, show j + p + 1 - p = j + 1 by omega]
      rfl
    · rw [finish_ok (by simp; omega), show N - p + 1 = N - (p - 1) by omega]

/-- `(short_sum, short_sum2)` after `i` bars. -/
def vidS (x : Nat → R) (s l i : Nat) : R × R := (slideT x s l i, slideT (fun k => x k * x k) s l i)

/-- Value of vidya. -/
def vidyaRec (s l : Nat) (alpha : R) (x : Nat → R) : Nat → R
  | 0 => x (l - 2)
  | j + 1 => vidyaNext (c! 1 / ((s : Int) : R)) (c! 1 / ((l : Int) : R)) alpha (vidS x s l (j + l)) (mom x l (j + l))
      (x (j + l - 1)) (vidyaRec s l alpha x j)

theorem vidyaStart_ok {o : Nat → R} {l : Nat} (hl : toInt (o 1) = .ok (l : Int)) (h : 2 ≤ l) :
    vidyaStart o = .ok ((l - 2 : Nat) : Int) := by
  have hr := toInt_range hl
  rw [vidyaStart, hl, bind_ok, i32_ok _ (by omega) (by omega)]; congr 1; omega

theorem vidya_run (o : Nat → R) (s l : Nat) (hs : toInt (o 0) = .ok (s : Int)) (hl : toInt (o 1) = .ok (l : Int))
    (h1 : 1 ≤ s) (h2 : s ≤ l) (h3 : 2 ≤ l) (ha : ¬ (o 2 < c! 0 ∨ c! 1 < o 2)) (x : Nat → R) (N : Nat) (hN : N ≠ l - 1) :
    vidyaBatch o (pre x N) = .ok (.okay, pre (vidyaRec s l (o 2) x) (N - (l - 2))) := by
  unfold vidyaBatch
  simp only [hs, hl, bind_ok, vidyaStart_ok hl h3, length_pre, pure_eq]
  rw [if_neg (by omega), if_neg (by omega), if_neg (by omega), if_neg ha]
  split
  · rename_i h; simp [show N - (l - 2) = 0 by omega]
  · refine forUp_bind 0 l (fun i => (vidS x s l i, mom x l i)) rfl rfl rfl (by omega) ?_ ?_
    · intro i _ hi
      rw [rd_pre_nat _ _ _ (by omega), bind_ok]
      simp only [vidS, mom, slideT, slide, if_pos hi]
      by_cases h : l - s ≤ i
      · simp only [if_pos h, if_pos (show (l : Int) - s ≤ i by omega)]
      · simp only [if_neg h, if_neg (show ¬ (l : Int) - s ≤ i by omega)]
    rw [rd_at (l - 2) (by omega) (by omega), bind_ok, wr_ok _ _ _ (by simp; omega), bind_ok, if_pos (by omega),
      rd_at (l - 1) (by omega) (by omega), bind_ok, wr_ok _ _ _ (by simp; omega), bind_ok, bind_ok]
    refine forUp_bind l N (fun i => ((vidS x s l i, mom x l i), (vidyaRec s l (o 2) x (i - l + 1),
      pre (vidyaRec s l (o 2) x) (i - l + 2)))) rfl rfl ?_ (by omega) ?_ ?_
    · simp [vidyaRec, pre_succ]
    · intro i h1 hi
      obtain ⟨j, rfl⟩ : ∃ j, i = j + l := ⟨i - l, by omega⟩
      rw [rd_pre_nat _ _ _ hi, bind_ok, rd_at j (by omega) (by omega), bind_ok, rd_at (j + l - s) (by omega) (by omega), bind_ok]
      have e1 : vidS x s l (j + l + 1) = ((vidS x s l (j + l)).1 + x (j + l) - x (j + l - s),
          (vidS x s l (j + l)).2 + x (j + l) * x (j + l) - x (j + l - s) * x (j + l - s)) := by
        simp only [vidS, slideT, if_neg (show ¬ j + l < l by omega)]
      have e2 : mom x l (j + l + 1) = ((mom x l (j + l)).1 + x (j + l) - x j,
          (mom x l (j + l)).2 + x (j + l) * x (j + l) - x j * x j) := by
        simp only [mom, slide, if_neg (show ¬ j + l < l by omega), Nat.add_sub_cancel]
      simp only [Nat.add_sub_cancel, show j + l + 1 - l = j + 1 by omega]
      rw [← e1, ← e2]
      have e3 : vidyaRec s l (o 2) x (j + 2) = vidyaNext (c! 1 / ((s : Int) : R)) (c! 1 / ((l : Int) : R)) (o 2)
          (vidS x s l (j + l + 1)) (mom x l (j + l + 1)) (x (j + l)) (vidyaRec s l (o 2) x (j + 1)) := by
        rw [show j + 2 = (j + 1) + 1 from rfl, vidyaRec, show j + 1 + l = j + l + 1 by omega, Nat.add_sub_cancel]
      rw [wr_pre _ _ _ _ (by omega) e3.symm, bind_ok, e3]
    · rw [finish_ok (by simp; omega), show N - l + 2 = N - (l - 2) by omega]

end Verif
