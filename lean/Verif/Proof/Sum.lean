/- sum/sma: trajectories (helper lemmas). -/
import Verif.Model.Sum
import Verif.Proof.Contract
import Verif.Proof.Ring
import Verif.Spec.Window
import Mathlib.Algebra.BigOperators.Intervals
import Mathlib.Tactic.Ring
import Mathlib.Tactic.FieldSimp
import Mathlib.Tactic.Linarith

namespace Verif
section Any
variable {R : Type} [Num R]

/-- The running sum the batch loops keep, before reading index `i` (any arithmetic). -/
def slide (x : Nat → R) (p : Nat) : Nat → R
  | 0 => c! 0
  | i + 1 => if i < p then slide x p i + x i else slide x p i + x i - x (i - p)

theorem sumStart_ok {o : Nat → R} {p : Nat} (hc : toInt (o 0) = .ok (p : Int)) :
    sumStart o = .ok ((p : Int) - 1) := by
  have hr := toInt_range hc
  simp [sumStart, hc, i32_ok _ (by omega : (-2147483648 : Int) ≤ (p : Int) - 1) (by omega)]

theorem smaStart_ok {o : Nat → R} {p : Nat} (hc : toInt (o 0) = .ok (p : Int)) :
    smaStart o = .ok ((p : Int) - 1) := sumStart_ok hc

theorem sumBatch_run (o : Nat → R) (p : Nat) (hc : toInt (o 0) = .ok (p : Int)) (hp : 1 ≤ p) :
    Computes sumBatch o (p - 1) (fun x j => slide x p (j + p)) := by
  intro x N
  unfold sumBatch
  simp only [hc, bind_ok, sumStart_ok hc, length_pre, pure_eq]
  rw [if_neg (by omega)]
  by_cases hN : (N : Int) ≤ (p : Int) - 1
  · rw [if_pos hN]
    have : N - (p - 1) = 0 := by omega
    simp [this]
  · rw [if_neg hN]
    refine forUp_bind 0 p (slide x p) rfl rfl rfl (by omega) ?_ ?_
    · intro i _ hi
      simp [rd_at i rfl (by omega : i < N), slide, hi]
    rw [wr_ok _ _ _ (by simp; omega)]
    refine forUp_bind p N (fun i => (slide x p i, pre (fun j => slide x p (j + p)) (i + 1 - p))) rfl rfl ?_ (by omega) ?_ ?_
    · simp [pre_succ]
    · intro i hi1 hi2
      simp only [rd_at i rfl hi2, bind_ok, rd_at (i - p) (by omega : (i : Int) - p = _) (by omega : i - p < N)]
      rw [wr_pre _ _ _ _ (by omega) (by rw [show i + 1 - p + p = i + 1 by omega, slide, if_neg (by omega)])]
      simp [slide, show ¬ i < p by omega, show i + 1 + 1 - p = i + 1 - p + 1 by omega]
    · rw [finish_ok (by simp; omega), show N + 1 - p = N - (p - 1) by omega]

theorem smaBatch_run (o : Nat → R) (p : Nat) (hc : toInt (o 0) = .ok (p : Int)) (hp : 1 ≤ p) :
    Computes smaBatch o (p - 1) (fun x j => slide x p (j + p) * (c! 1 / ((p : Int) : R))) := by
  intro x N
  unfold smaBatch
  simp only [hc, bind_ok, smaStart_ok hc, length_pre, pure_eq]
  rw [if_neg (by omega)]
  by_cases hN : (N : Int) ≤ (p : Int) - 1
  · rw [if_pos hN]
    have : N - (p - 1) = 0 := by omega
    simp [this]
  · rw [if_neg hN]
    refine forUp_bind 0 p (slide x p) rfl rfl rfl (by omega) ?_ ?_
    · intro i _ hi
      simp [rd_at i rfl (by omega : i < N), slide, hi]
    rw [wr_ok _ _ _ (by simp; omega)]
    refine forUp_bind p N (fun i => (slide x p i, pre (fun j => slide x p (j + p) * (c! 1 / ((p : Int) : R))) (i + 1 - p))) rfl rfl ?_ (by omega) ?_ ?_
    · simp [pre_succ]
    · intro i hi1 hi2
      simp only [rd_at i rfl hi2, bind_ok, rd_at (i - p) (by omega : (i : Int) - p = _) (by omega : i - p < N)]
      rw [wr_pre _ _ _ _ (by omega) (by rw [show i + 1 - p + p = i + 1 by omega, slide, if_neg (by omega)])]
      simp [slide, show ¬ i < p by omega, show i + 1 + 1 - p = i + 1 - p + 1 by omega]
    · rw [finish_ok (by simp; omega), show N + 1 - p = N - (p - 1) by omega]

/-- The sum the stream keeps after `n` bars (any arithmetic). -/
def slideS (x : Nat → R) (p : Nat) : Nat → R
  | 0 => c! 0
  | n + 1 => if n < p - 1 then slideS x p n + x n else slideS x p n + x n - x (n - (p - 1))

theorem smaPhases_ordered (k : SmaK R) : Phases.Ordered (smaPhases k) := by
  refine ⟨?_, fun p => ⟨_, List.mem_cons_of_mem _ (List.mem_cons_self ..), rfl⟩⟩
  simp [smaPhases]; omega

theorem sma_stream_run (o : Nat → R) (p : Nat) (hc : toInt (o 0) = .ok (p : Int)) (hp : 1 ≤ p) :
    (sma (R := R)).StreamComputes o (p - 1)
      (fun x j => (slideS x p (j + (p - 1)) + x (j + (p - 1))) * (c! 1 / ((p : Int) : R))) := by
  obtain ⟨r0, hr0, hr0'⟩ := Ring.make_ok (R := R) p hp
  refine streamComputes_of (I := sma) (k := ⟨p, c! 1 / ((p : Int) : R)⟩) (s0 := ⟨c! 0, r0⟩) ?_ (smaPhases_ordered _)
    (fun x n s => s.price.Holds p n x ∧ s.sum = slideS x p n) (fun x => ⟨hr0' x, rfl⟩) ?_
  · simp only [sma, smaNew, hc, smaStart_ok hc, bind_ok, hr0, pure_eq]
    rw [if_neg (by omega)]
    congr 2; omega
  · rintro x n ⟨sum, price⟩ ⟨h1, h2⟩
    simp only at h1 h2
    obtain ⟨r1, hr1, hn⟩ := Ring.set_ok h1 (x n) rfl
    by_cases hlt : n < p - 1
    · refine ⟨⟨slideS x p (n + 1), r1.step⟩, ?_, Ring.step_ok hn, rfl⟩
      simp only [barStep, sma, smaPhases, List.find?]
      rw [decide_eq_true (by omega)]
      simp [hr1, Ring.cur_ok hn, hlt, slideS, h2]
    · refine ⟨⟨slideS x p (n + 1), r1.step⟩, ?_, Ring.step_ok hn, rfl⟩
      simp only [barStep, sma, smaPhases, List.find?]
      rw [decide_eq_false (by omega)]
      have hg := Ring.get_ok_hist hn (p - 1) (by omega) (by omega)
      rw [show ((p - 1 : Nat) : Int) = (p : Int) - 1 by omega] at hg
      simp [hr1, Ring.cur_ok hn, hlt, slideS, h2, hg, show n - (p - 1) + (p - 1) = n by omega]

end Any

section Field
variable {R : Type} [Field R] [LinearOrder R] [IsStrictOrderedRing R] [CMath R]
open Finset Spec

theorem slide_lt (x : Nat → R) (p i : Nat) (h : i ≤ p) : slide x p i = ∑ k ∈ range i, x k := by
  induction i with
  | zero => simp [slide]
  | succ i ih => rw [slide, if_pos (by omega), ih (by omega), sum_range_succ]

theorem winSum_succ (x : Nat → R) (p j : Nat) :
    winSum p x (j + 1) = winSum p x j + x (j + p) - x j := by
  unfold winSum
  have h1 := sum_range_succ (fun k => x (j + k)) p
  have h2 := sum_range_succ' (fun k => x (j + k)) p
  simp only [Nat.add_zero] at h2
  have : ∑ k ∈ range p, x (j + 1 + k) = ∑ k ∈ range p, x (j + (k + 1)) := by
    refine sum_congr rfl fun k _ => by congr 1; omega
  rw [this]; linarith

theorem slide_eq (x : Nat → R) (p j : Nat) : slide x p (j + p) = winSum p x j := by
  induction j with
  | zero => rw [Nat.zero_add, slide_lt x p p le_rfl]; simp [winSum]
  | succ j ih =>
    rw [show j + 1 + p = (j + p) + 1 by omega, slide, if_neg (by omega), ih, winSum_succ]
    simp

theorem slideS_eq (x : Nat → R) (p j : Nat) (hp : 1 ≤ p) :
    slideS x p (j + (p - 1)) + x (j + (p - 1)) = winSum p x j := by
  have h0 : ∀ i, i ≤ p - 1 → slideS x p i = ∑ k ∈ range i, x k := by
    intro i
    induction i with
    | zero => simp [slideS]
    | succ i ih => intro h; rw [slideS, if_pos (by omega), ih (by omega), sum_range_succ]
  induction j with
  | zero =>
    rw [Nat.zero_add, h0 _ le_rfl, ← sum_range_succ, show p - 1 + 1 = p by omega]; simp [winSum]
  | succ j ih =>
    rw [show j + 1 + (p - 1) = j + (p - 1) + 1 by omega, slideS, if_neg (by omega), ih, winSum_succ,
      show j + (p - 1) + 1 = j + p by omega]
    simp; ring

end Field
end Verif
