/- C75: the period of a smoothing filter is the cycle whose power it halves. -/
import Verif.Spec.Cutoff
import Verif.Proof.CutoffTables
import Verif.Props.Filters
import Verif.Core.RealInst
import Mathlib.Tactic.NormNum.BigOperators
import Mathlib.Analysis.SpecialFunctions.Trigonometric.Bounds

namespace Verif
open Spec Cutoff

set_option linter.unusedSectionVars false

section Tables
variable [CMath ℝ]
attribute [local irreducible] Cutoff.row

/-- The power with which a cycle is passed does not depend on how the amplitude and the shift are chosen: two descriptions of the same
function have the same power, so that a claim that it is below a bound refutes every claim that it is above. -/
theorem power_unique {batch : (Nat → ℝ) → List ℝ → M (Ret × List ℝ)} {o : Nat → ℝ} {s P : Nat} (hP : 1 ≤ P) {lo hi lo' hi' : ℝ}
    (h : PowerBetween batch o s P lo hi) (h' : PowerBetween batch o s P lo' hi') : lo ≤ hi' := by
  obtain ⟨a, ψ, p, h1, -⟩ := h
  obtain ⟨a', ψ', p', -, h2⟩ := h'
  exact h1.trans ((amplitude_le hP p p').trans h2)

theorem iir_next (b a : List ℝ) (x : Nat → ℝ) (n : Nat) : iir b a x n = dot b (past x (n + 1)) + dot a (past (iir b a x) n) := by
  conv_lhs => unfold iir
  rw [iirPast_past]

/-- gf1 halves the power of a cycle of its period. -/
theorem gf1_cutoff (o : Nat → ℝ) (q : Nat) (h1 : 1 ≤ q) (h2 : q ≤ 20) (hc : toInt (o 0) = .ok ((2 * q : Nat) : Int)) :
    PowerBetween gf1Batch o 0 (2 * q) (4999 / 10000) (5001 / 10000) := by
  have hr := rows (P := fun i => row i 4999 10000 5001 10000 1000000 (gf1A1.getD i 0) 0 0 0 (gf1B0.getD i 0) 0 0 0 8 = true) gf1_row q h1 h2
  have := power (batch := gf1Batch) (o := o) (s := 0) h1 h2 (by norm_num) (by norm_num) hr fun _ x => ⟨_, fun n => ?_, fun N _ => gf1_value o q h1 h2 hc x N⟩
  · push_cast at this; exact this
  · rw [iir_next]
    simp only [dot1, past_getD, coef_cast, show 0 + 1 ≤ n + 5 + 1 by omega, show 0 + 1 ≤ n + 5 by omega, if_true, Nat.add_sub_cancel, Nat.zero_add,
      show n + 5 - 1 = n + 4 by omega]
    push_cast
    ring

theorem gf2_cutoff (o : Nat → ℝ) (q : Nat) (h1 : 1 ≤ q) (h2 : q ≤ 20) (hc : toInt (o 0) = .ok ((2 * q : Nat) : Int)) :
    PowerBetween gf2Batch o 0 (2 * q) (4999 / 10000) (5001 / 10000) := by
  have hr := rows (P := fun i => row i 4999 10000 5001 10000 (gf2B0.getD i 0 + gf2A1.getD i 0 + gf2A2.getD i 0)
    (gf2A1.getD i 0) (gf2A2.getD i 0) 0 0 (gf2B0.getD i 0) 0 0 0 20 = true) gf2_row q h1 h2
  have := power (batch := gf2Batch) (o := o) (s := 0) h1 h2 (by norm_num) (by norm_num) hr fun hS x => ⟨_, fun n => ?_, fun N _ => gf2_value o q h1 h2 hc x N⟩
  · push_cast at this; exact this
  · rw [iir_next]
    have hS' : ((gf2B0.getD (q - 1) 0 + gf2A1.getD (q - 1) 0 + gf2A2.getD (q - 1) 0 : Int) : ℝ) ≠ 0 := by exact_mod_cast hS.ne'
    simp only [dot1, dot2, past_getD, coef_cast, show 0 + 1 ≤ n + 5 + 1 by omega, show 0 + 1 ≤ n + 5 by omega, show 1 + 1 ≤ n + 5 by omega, if_true,
      show n + 5 + 1 - (0 + 1) = n + 5 by omega, show n + 5 - (0 + 1) = n + 4 by omega, show n + 5 - (1 + 1) = n + 3 by omega]
    push_cast at hS' ⊢
    field_simp
    ring

/-- gf3 takes every coefficient from one table, so its period changes nothing, and at no period is the power halved. -/
theorem gf3_cutoff_violates (o : Nat → ℝ) (q : Nat) (h1 : 1 ≤ q) (h2 : q ≤ 20) (hc : toInt (o 0) = .ok ((2 * q : Nat) : Int)) :
    PowerBetween gf3Batch o 0 (2 * q) 0 (452 / 1000) := by
  have hr := rows (P := fun i => row i 0 1 452 1000 4 1 1 1 0 1 0 0 0 6 = true) gf3_row q h1 h2
  have := power (batch := gf3Batch) (o := o) (s := 0) h1 h2 (by norm_num) (by norm_num) hr fun _ x =>
    ⟨_, fun n => ?_, fun N _ => gf3_ignores_period o q h1 h2 hc x N⟩
  · push_cast at this; rwa [zero_div] at this
  · rw [iir_next]
    simp only [dot1, dot3, past_getD, show 0 + 1 ≤ n + 5 + 1 by omega, show 0 + 1 ≤ n + 5 by omega, show 1 + 1 ≤ n + 5 by omega, show 2 + 1 ≤ n + 5 by omega,
      if_true, show n + 5 + 1 - (0 + 1) = n + 5 by omega, show n + 5 - (0 + 1) = n + 4 by omega, show n + 5 - (1 + 1) = n + 3 by omega,
      show n + 5 - (2 + 1) = n + 2 by omega]
    push_cast
    ring

theorem gf4_power (o : Nat → ℝ) (q : Nat) (h1 : 1 ≤ q) (h2 : q ≤ 15) (hc : toInt (o 0) = .ok ((2 * q : Nat) : Int)) :
    PowerBetween gf4Batch o 0 (2 * q) ((if q ≤ 3 then 499 else 0) / 1000) ((if q ≤ 3 then 501 else 491) / 1000) := by
  have hr := gf4_row ⟨q - 1, by omega⟩ (by show q - 1 < 15; omega)
  have := power (batch := gf4Batch) (o := o) (s := 0) h1 (by omega) (by norm_num) (by norm_num) hr fun hS x =>
    ⟨gf4Y q x, fun n => ?_, fun N hN => gf4_run o q h1 (by omega) hc x N hN⟩
  · have e : q - 1 < 3 ↔ q ≤ 3 := by omega
    simp only [e] at this
    push_cast at this; exact this
  · rw [gf4Y_filt]
    have hS' : ((gf4B0.getD (q - 1) 0 + gf4A1.getD (q - 1) 0 + gf4A2.getD (q - 1) 0 + gf4A3.getD (q - 1) 0 + gf4A4.getD (q - 1) 0 : Int) : ℝ) ≠ 0 := by
      exact_mod_cast hS.ne'
    simp only [coef_cast]
    push_cast at hS' ⊢
    field_simp
    ring

/-- gf4 with a period of at most 6. Partial: not above. -/
theorem gf4_cutoff_partial (o : Nat → ℝ) (q : Nat) (h1 : 1 ≤ q) (h2 : q ≤ 3) (hc : toInt (o 0) = .ok ((2 * q : Nat) : Int)) :
    PowerBetween gf4Batch o 0 (2 * q) (499 / 1000) (501 / 1000) := by
  have := gf4_power o q h1 (by omega) hc
  simpa only [if_pos h2] using this

/-- gf4 passes less than half the power of the cycle of its period for periods 8 to 30 (above, it passes no cycle at all: it diverges). -/
theorem gf4_cutoff_violates (o : Nat → ℝ) (q : Nat) (h1 : 4 ≤ q) (h2 : q ≤ 15) (hc : toInt (o 0) = .ok ((2 * q : Nat) : Int)) :
    PowerBetween gf4Batch o 0 (2 * q) 0 (491 / 1000) := by
  have := gf4_power o q (by omega) h2 hc
  rw [if_neg (by omega), if_neg (by omega), zero_div] at this
  exact this

theorem bf2_power (o : Nat → ℝ) (h : 1 ≤ o 0) (q : Nat) (h1 : 1 ≤ q) (h2 : q ≤ 20) (hc : toInt (o 0) = .ok ((2 * q : Nat) : Int)) (s : Nat)
    (hs : bf2Start o = .ok (s : Int)) :
    PowerBetween bf2Batch o s (2 * q) ((if q ≤ 5 then 0 else 450) / 1000) ((if q ≤ 5 then 437 else 500) / 1000) := by
  have hr := bf2_row ⟨q - 1, by omega⟩
  have := power (batch := bf2Batch) (o := o) (s := s) h1 h2 (by norm_num) (by norm_num) hr fun _ x =>
    ⟨iir [coef bf2B0 q, coef bf2B1 q, coef bf2B2 q] [coef bf2A1 q, coef bf2A2 q] x, fun n => ?_, fun N _ => bf2_value o h q h1 h2 hc s hs x N⟩
  · have e : q - 1 < 5 ↔ q ≤ 5 := by omega
    simp only [e] at this
    push_cast at this; exact this
  · rw [iir_next]
    simp only [dot2, dot3, past_getD, coef_cast, show 0 + 1 ≤ n + 5 + 1 by omega, show 1 + 1 ≤ n + 5 + 1 by omega, show 2 + 1 ≤ n + 5 + 1 by omega,
      show 0 + 1 ≤ n + 5 by omega, show 1 + 1 ≤ n + 5 by omega,
      if_true, show n + 5 + 1 - (0 + 1) = n + 5 by omega, show n + 5 + 1 - (1 + 1) = n + 4 by omega, show n + 5 + 1 - (2 + 1) = n + 3 by omega,
      show n + 5 - (0 + 1) = n + 4 by omega, show n + 5 - (1 + 1) = n + 3 by omega]
    push_cast
    ring

/-- bf2 with a period of at least 12 roughly halves the power of a cycle of its period. Partial: not below. -/
theorem bf2_cutoff_partial (o : Nat → ℝ) (h : 1 ≤ o 0) (q : Nat) (h1 : 6 ≤ q) (h2 : q ≤ 20) (hc : toInt (o 0) = .ok ((2 * q : Nat) : Int)) (s : Nat)
    (hs : bf2Start o = .ok (s : Int)) : PowerBetween bf2Batch o s (2 * q) (450 / 1000) (500 / 1000) := by
  have := bf2_power o h q (by omega) h2 hc s hs
  rwa [if_neg (by omega), if_neg (by omega)] at this

theorem bf2_cutoff_violates (o : Nat → ℝ) (h : 1 ≤ o 0) (q : Nat) (h1 : 1 ≤ q) (h2 : q ≤ 5) (hc : toInt (o 0) = .ok ((2 * q : Nat) : Int)) (s : Nat)
    (hs : bf2Start o = .ok (s : Int)) : PowerBetween bf2Batch o s (2 * q) 0 (437 / 1000) := by
  have := bf2_power o h q h1 (by omega) hc s hs
  rwa [if_pos h2, if_pos h2, zero_div] at this

theorem bf3_power (o : Nat → ℝ) (h : 1 ≤ o 0) (q : Nat) (h1 : 1 ≤ q) (h2 : q ≤ 20) (hc : toInt (o 0) = .ok ((2 * q : Nat) : Int)) (s : Nat)
    (hs : bf3Start o = .ok (s : Int)) :
    PowerBetween bf3Batch o s (2 * q) ((if q ≤ 6 then 0 else 450) / 1000) ((if q ≤ 6 then 435 else 500) / 1000) := by
  have hr := bf3_row ⟨q - 1, by omega⟩
  have := power (batch := bf3Batch) (o := o) (s := s) h1 h2 (by norm_num) (by norm_num) hr fun _ x =>
    ⟨iir [coef bf3B0 q, coef bf3B1 q, coef bf3B2 q, coef bf3B3 q] [coef bf3A1 q, coef bf3A2 q, coef bf3A3 q] x, fun n => ?_,
      fun N _ => bf3_value o h q h1 h2 hc s hs x N⟩
  · have e : q - 1 < 6 ↔ q ≤ 6 := by omega
    simp only [e] at this
    push_cast at this; exact this
  · rw [iir_next]
    simp only [dot3, dot4, past_getD, coef_cast, show 0 + 1 ≤ n + 5 + 1 by omega, show 1 + 1 ≤ n + 5 + 1 by omega, show 2 + 1 ≤ n + 5 + 1 by omega,
      show 3 + 1 ≤ n + 5 + 1 by omega, show 0 + 1 ≤ n + 5 by omega, show 1 + 1 ≤ n + 5 by omega, show 2 + 1 ≤ n + 5 by omega,
      if_true, show n + 5 + 1 - (0 + 1) = n + 5 by omega, show n + 5 + 1 - (1 + 1) = n + 4 by omega, show n + 5 + 1 - (2 + 1) = n + 3 by omega,
      show n + 5 + 1 - (3 + 1) = n + 2 by omega, show n + 5 - (0 + 1) = n + 4 by omega, show n + 5 - (1 + 1) = n + 3 by omega,
      show n + 5 - (2 + 1) = n + 2 by omega]
    push_cast
    ring

/-- bf3 with a period of at least 14. Partial: not below. -/
theorem bf3_cutoff_partial (o : Nat → ℝ) (h : 1 ≤ o 0) (q : Nat) (h1 : 7 ≤ q) (h2 : q ≤ 20) (hc : toInt (o 0) = .ok ((2 * q : Nat) : Int)) (s : Nat)
    (hs : bf3Start o = .ok (s : Int)) : PowerBetween bf3Batch o s (2 * q) (450 / 1000) (500 / 1000) := by
  have := bf3_power o h q (by omega) h2 hc s hs
  rwa [if_neg (by omega), if_neg (by omega)] at this

theorem bf3_cutoff_violates (o : Nat → ℝ) (h : 1 ≤ o 0) (q : Nat) (h1 : 1 ≤ q) (h2 : q ≤ 6) (hc : toInt (o 0) = .ok ((2 * q : Nat) : Int)) (s : Nat)
    (hs : bf3Start o = .ok (s : Int)) : PowerBetween bf3Batch o s (2 * q) 0 (435 / 1000) := by
  have := bf3_power o h q h1 (by omega) hc s hs
  rwa [if_pos h2, if_pos h2, zero_div] at this

end Tables

/-! ### ssmooth -/

/-- The angle `1.414·3.14159/10` of ssmooth. -/
noncomputable def ssX : ℝ := 444220826 / 1000000000

theorem ss_exp : |Real.exp (-ssX) - 6413237842 / 10000000000| ≤ 1 / 10 ^ 8 := by
  have h := Real.exp_bound (x := -ssX) (by norm_num [ssX]) (n := 10) (by norm_num)
  norm_num [ssX, Finset.sum_range_succ, Nat.factorial] at h ⊢
  rw [abs_le] at *
  constructor <;> linarith [h.1, h.2]

theorem double_bounds {c l h : ℝ} (hl : 0 ≤ l) (h1 : l ≤ c) (h2 : c ≤ h) : 2 * l ^ 2 - 1 ≤ 2 * c ^ 2 - 1 ∧ 2 * c ^ 2 - 1 ≤ 2 * h ^ 2 - 1 := by
  constructor <;> nlinarith

theorem ss_cos : 90288 / 100000 ≤ Real.cos ssX ∧ Real.cos ssX ≤ 90297 / 100000 := by
  have h := Real.cos_bound (x := ssX / 8) (by norm_num [ssX])
  have e1 : Real.cos (ssX / 4) = 2 * Real.cos (ssX / 8) ^ 2 - 1 := by rw [← Real.cos_two_mul]; congr 1; ring
  have e2 : Real.cos (ssX / 2) = 2 * Real.cos (ssX / 4) ^ 2 - 1 := by rw [← Real.cos_two_mul]; congr 1; ring
  have e3 : Real.cos ssX = 2 * Real.cos (ssX / 2) ^ 2 - 1 := by rw [← Real.cos_two_mul]; congr 1; ring
  rw [abs_le] at h
  have b0 : 9984578 / 10000000 ≤ Real.cos (ssX / 8) ∧ Real.cos (ssX / 8) ≤ 9984589 / 10000000 := by
    generalize hc : Real.cos (ssX / 8) = c at *
    norm_num [ssX] at h
    constructor <;> linarith [h.1, h.2]
  have b1 := double_bounds (by norm_num) b0.1 b0.2
  rw [← e1] at b1
  have b2 := double_bounds (by norm_num) b1.1 b1.2
  rw [← e2] at b2
  have b3 := double_bounds (by norm_num) b2.1 b2.2
  rw [← e3] at b3
  constructor
  · refine le_trans ?_ b3.1; norm_num
  · refine le_trans b3.2 ?_; norm_num

theorem ssA1_real : (ssA1 : ℝ) = Real.exp (-ssX) := by
  unfold ssA1 ssX; show Real.exp _ = _; congr 1; norm_num

theorem ssC2_real : (ssC2 : ℝ) = 2 * Real.exp (-ssX) * Real.cos ssX := by
  unfold ssC2; rw [ssA1_real]; show _ * Real.cos _ = _; unfold ssX; congr 2 <;> norm_num

theorem ss_decays (z : Nat → ℝ) (hz : ∀ n, (1 : ℝ) * z (n + 4) = ssC2 * z (n + 3) + ssC3 * z (n + 2) + 0 * z (n + 1) + 0 * z n) (ε : ℝ) (hε : 0 < ε) :
    ∃ n0, ∀ n, n0 ≤ n → |z n| ≤ ε := by
  have ha := abs_le.1 ss_exp
  have hc := ss_cos
  obtain ⟨n0, h0⟩ := pair_decays (Real.exp (-ssX)) (Real.cos ssX) (Real.exp_pos _) (by norm_num at ha; linarith [ha.2]) (by nlinarith)
    (fun n => z (n + 2)) (fun n => by
      have := hz n
      rw [ssC2_real, ssC3, ssA1_real] at this
      show z (n + 4) = 2 * Real.exp (-ssX) * Real.cos ssX * z (n + 3) - Real.exp (-ssX) ^ 2 * z (n + 2)
      linear_combination this) ε hε
  exact ⟨n0 + 2, fun n hn => by have := h0 (n - 2) (by omega); rwa [show n - 2 + 2 = n by omega] at this⟩

theorem ss_power (o : Nat → ℝ) (q : Nat) (lo hi : ℝ) (hD : 0 < sq 1 (-ssC2) (-ssC3) (-0) (-0) (1 - Real.cos (Real.pi / q)))
    (h1 : lo * sq 1 (-ssC2) (-ssC3) (-0) (-0) (1 - Real.cos (Real.pi / q)) ≤ sq (ssC1 / 2) (ssC1 / 2) 0 0 0 (1 - Real.cos (Real.pi / q)))
    (h2 : sq (ssC1 / 2) (ssC1 / 2) 0 0 0 (1 - Real.cos (Real.pi / q)) ≤ hi * sq 1 (-ssC2) (-ssC3) (-0) (-0) (1 - Real.cos (Real.pi / q))) :
    PowerBetween ssmoothBatch o 0 (2 * q) lo hi := by
  have ew : 2 * Real.pi / (2 * q : Nat) = Real.pi / q := by push_cast; rw [mul_div_mul_left _ _ (by norm_num : (2 : ℝ) ≠ 0)]
  obtain ⟨a, ψ, e, hst⟩ := steady' (ssC1 / 2 : ℝ) (ssC1 / 2) 0 0 ss_decays (2 * q) (by rw [ew]; exact hD)
  rw [ew] at e
  rw [← e] at h1 h2
  refine ⟨a, ψ, fun φ ε hε => ?_, le_of_mul_le_mul_right h1 hD, le_of_mul_le_mul_right h2 hD⟩
  have hrec : ∀ n, (1 : ℝ) * iir [ssC1 / 2, ssC1 / 2] [ssC2, ssC3] (wave (2 * q) φ) (n + 5) = ssC1 / 2 * wave (2 * q) φ (n + 5)
      + ssC1 / 2 * wave (2 * q) φ (n + 4) + 0 * wave (2 * q) φ (n + 3) + 0 * wave (2 * q) φ (n + 2)
      + ssC2 * iir [ssC1 / 2, ssC1 / 2] [ssC2, ssC3] (wave (2 * q) φ) (n + 4) + ssC3 * iir [ssC1 / 2, ssC1 / 2] [ssC2, ssC3] (wave (2 * q) φ) (n + 3)
      + 0 * iir [ssC1 / 2, ssC1 / 2] [ssC2, ssC3] (wave (2 * q) φ) (n + 2) + 0 * iir [ssC1 / 2, ssC1 / 2] [ssC2, ssC3] (wave (2 * q) φ) (n + 1) := by
    intro n
    rw [iir_next (n := n + 5)]
    simp only [dot2, past_getD, show 0 + 1 ≤ n + 5 + 1 by omega, show 1 + 1 ≤ n + 5 + 1 by omega,
      show 0 + 1 ≤ n + 5 by omega, show 1 + 1 ≤ n + 5 by omega, if_true, show n + 5 + 1 - (0 + 1) = n + 5 by omega,
      show n + 5 + 1 - (1 + 1) = n + 4 by omega, show n + 5 - (0 + 1) = n + 4 by omega, show n + 5 - (1 + 1) = n + 3 by omega]
    ring
  obtain ⟨n0, h0⟩ := hst φ (iir [ssC1 / 2, ssC1 / 2] [ssC2, ssC3] (wave (2 * q) φ)) hrec ε hε
  refine ⟨n0 + 5, fun N hN => ⟨_, ssmooth_value o _ N, by simp [pre], fun j v hj hv => ?_⟩⟩
  simp only [pre, List.getElem?_map, Option.map_eq_some_iff] at hv
  obtain ⟨i, hi, rfl⟩ := hv
  obtain ⟨hi', rfl⟩ := List.getElem?_eq_some_iff.1 hi
  rw [List.getElem_range]
  exact h0 j (by omega)

theorem ss_coefs : |(ssC2 : ℝ) - 115813 / 100000| ≤ 7 / 100000 ∧ |(ssC3 : ℝ) + 411296 / 1000000| ≤ 1 / 1000000 := by
  have ha := abs_le.1 ss_exp
  have hc := ss_cos
  rw [ssC2_real, ssC3, ssA1_real]
  norm_num at ha
  generalize Real.exp (-ssX) = a at *
  generalize Real.cos ssX = c at *
  rw [abs_le, abs_le]
  refine ⟨⟨by nlinarith, by nlinarith⟩, by nlinarith, by nlinarith⟩

/-- ssmooth, which takes no period, passes a little less than half the power of a cycle of ten bars. -/
theorem ssmooth_cutoff (o : Nat → ℝ) : PowerBetween ssmoothBatch o 0 10 (48 / 100) (49 / 100) := by
  obtain ⟨t1, t2, t3⟩ := cut_cert ⟨4, by omega⟩
  have u1 := below_sound (by norm_num) (by norm_num) t1
  have u2 := above_sound (by norm_num) (by norm_num) t2
  have hc1 : (ssC1 : ℝ) = 1 - ssC2 - ssC3 := by unfold ssC1; norm_num
  obtain ⟨k1, k2⟩ := ss_coefs
  simp only [cutT, List.getD_cons_succ, List.getD_cons_zero] at u1 u2
  push_cast at u1 u2
  obtain ⟨w, hw⟩ : ∃ w, Real.cos (Real.pi / 5) = 809016994375 / 1000000000000 + w := ⟨Real.cos (Real.pi / 5) - 809016994375 / 1000000000000, by ring⟩
  obtain ⟨u, hu⟩ : ∃ u, (ssC2 : ℝ) = 115813 / 100000 + u := ⟨ssC2 - 115813 / 100000, by ring⟩
  obtain ⟨v, hv⟩ : ∃ v, (ssC3 : ℝ) = -(411296 / 1000000) + v := ⟨ssC3 + 411296 / 1000000, by ring⟩
  have bu : |u| ≤ 7 / 100000 := by rw [hu] at k1; simpa using k1
  have bv : |v| ≤ 1 / 1000000 := by rw [hv] at k2; simpa using k2
  have bw : |w| ≤ 1 / 100000000000 := by rw [hw] at u1 u2; rw [abs_le]; norm_num at u1 u2; constructor <;> linarith
  have key : 0 < sq 1 (-ssC2) (-ssC3) (-0) (-0) (1 - Real.cos (Real.pi / 5)) ∧
    48 / 100 * sq 1 (-ssC2) (-ssC3) (-0) (-0) (1 - Real.cos (Real.pi / 5)) ≤ sq (ssC1 / 2) (ssC1 / 2) 0 0 0 (1 - Real.cos (Real.pi / 5)) ∧
    sq (ssC1 / 2) (ssC1 / 2) 0 0 0 (1 - Real.cos (Real.pi / 5)) ≤ 49 / 100 * sq 1 (-ssC2) (-ssC3) (-0) (-0) (1 - Real.cos (Real.pi / 5)) := by
    rw [hc1, hw, hu, hv]
    unfold Cutoff.sq
    have huu : |u * u| ≤ 7 / 100000 * (7 / 100000) := by rw [abs_mul]; exact mul_le_mul bu bu (abs_nonneg _) (by norm_num)
    have huv : |u * v| ≤ 7 / 100000 * (1 / 1000000) := by rw [abs_mul]; exact mul_le_mul bu bv (abs_nonneg _) (by norm_num)
    have hvv : |v * v| ≤ 1 / 1000000 * (1 / 1000000) := by rw [abs_mul]; exact mul_le_mul bv bv (abs_nonneg _) (by norm_num)
    have huw : |u * w| ≤ 7 / 100000 * (1 / 100000000000) := by rw [abs_mul]; exact mul_le_mul bu bw (abs_nonneg _) (by norm_num)
    have hvw : |v * w| ≤ 1 / 1000000 * (1 / 100000000000) := by rw [abs_mul]; exact mul_le_mul bv bw (abs_nonneg _) (by norm_num)
    have hww : |w * w| ≤ 1 / 100000000000 * (1 / 100000000000) := by rw [abs_mul]; exact mul_le_mul bw bw (abs_nonneg _) (by norm_num)
    have huuw : |u * u * w| ≤ 7 / 100000 * (7 / 100000) * (1 / 100000000000) := by rw [abs_mul]; exact mul_le_mul huu bw (abs_nonneg _) (by norm_num)
    have huvw : |u * v * w| ≤ 7 / 100000 * (1 / 1000000) * (1 / 100000000000) := by rw [abs_mul]; exact mul_le_mul huv bw (abs_nonneg _) (by norm_num)
    have hvvw : |v * v * w| ≤ 1 / 1000000 * (1 / 1000000) * (1 / 100000000000) := by rw [abs_mul]; exact mul_le_mul hvv bw (abs_nonneg _) (by norm_num)
    have hvww : |v * w * w| ≤ 1 / 1000000 * (1 / 100000000000) * (1 / 100000000000) := by rw [abs_mul]; exact mul_le_mul hvw bw (abs_nonneg _) (by norm_num)
    rw [abs_le] at bu bv bw huu huv hvv huw hvw hww huuw huvw hvvw hvww
    refine ⟨?_, ?_, ?_⟩ <;> ring_nf at * <;>
    linarith [bu.1, bu.2, bv.1, bv.2, bw.1, bw.2, huu.1, huu.2, huv.1, huv.2, hvv.1, hvv.2, huw.1, huw.2, hvw.1, hvw.2, hww.1, hww.2, huuw.1, huuw.2,
      huvw.1, huvw.2, hvvw.1, hvvw.2, hvww.1, hvww.2]
  have := ss_power o 5 (48 / 100) (49 / 100)
  push_cast at this
  exact this key.1 key.2.1 key.2.2

/-- ssmooth removes a cycle of two bars. -/
theorem ssmooth_stops_alternation (o : Nat → ℝ) : PowerBetween ssmoothBatch o 0 2 0 0 := by
  have := ss_power o 1 0 0
  obtain ⟨k1, k2⟩ := ss_coefs
  rw [abs_le] at k1 k2
  simp only [Nat.cast_one, div_one, Real.cos_pi] at this
  refine this ?_ (le_of_eq ?_) (le_of_eq ?_) <;> unfold Cutoff.sq
  · nlinarith [sq_nonneg ((ssC2 : ℝ) - ssC3)]
  · ring
  · ring

/-! The hypotheses are met: over the real numbers, with the real `<cmath>` functions. -/

theorem real_period (q : Nat) (hq : q ≤ 20) : toInt (((2 * q : Nat) : Int) : ℝ) = .ok ((2 * q : Nat) : Int) := toInt_cast _ (by omega)

example : PowerBetween gf1Batch (fun _ => ((2 * 5 : Nat) : Int)) 0 10 (4999 / 10000) (5001 / 10000) :=
  gf1_cutoff _ 5 (by omega) (by omega) (real_period 5 (by omega))
example : PowerBetween gf2Batch (fun _ => ((2 * 20 : Nat) : Int)) 0 40 (4999 / 10000) (5001 / 10000) :=
  gf2_cutoff _ 20 (by omega) (by omega) (real_period 20 (by omega))
/-- gf4 with period 20 does not halve the power of a cycle of twenty bars. -/
example : ¬ PowerBetween gf4Batch (fun _ => ((2 * 10 : Nat) : Int)) 0 20 (499 / 1000) (501 / 1000) := fun h => by
  have := power_unique (by omega) h (gf4_cutoff_violates _ 10 (by omega) (by omega) (real_period 10 (by omega)))
  norm_num at this
/-- Nor does gf3. -/
example : ¬ PowerBetween gf3Batch (fun _ => ((2 * 20 : Nat) : Int)) 0 40 (499 / 1000) (501 / 1000) := fun h => by
  have := power_unique (by omega) h (gf3_cutoff_violates _ 20 (by omega) (by omega) (real_period 20 (by omega)))
  norm_num at this
example : ∃ s, PowerBetween bf2Batch (fun _ => ((2 * 10 : Nat) : Int)) s 20 (450 / 1000) (500 / 1000) := by
  obtain ⟨⟨s, hs, -⟩, -⟩ := bf_start_value (R := ℝ) (fun _ => ((2 * 10 : Nat) : Int)) (by norm_num) (by norm_num)
  exact ⟨s, bf2_cutoff_partial _ (by norm_num) 10 (by omega) (by omega) (real_period 10 (by omega)) s hs⟩

end Verif
