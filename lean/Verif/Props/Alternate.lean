/-
C75: the smoothing filters and the fastest oscillation.
-/
import Verif.Spec.Alternate
import Verif.Props.Cutoff
import Verif.Props.Converge

namespace Verif
open Spec
open Converge (Tends)

namespace Alternate
variable {R : Type} [Field R] [LinearOrder R] [IsStrictOrderedRing R]

theorem table' {S a1 a2 a3 a4 b0 b1 b2 b3 : R}
    (hdec : ∀ z : Nat → R, (∀ n, S * z (n + 4) = a1 * z (n + 3) + a2 * z (n + 2) + a3 * z (n + 1) + a4 * z n) → Tends z 0) {g : R}
    (hg : g * (S + a1 - a2 + a3 - a4) = b0 - b1 + b2 - b3) {x y : Nat → R}
    (hy : ∀ n, S * y (n + 5) = b0 * x (n + 5) + b1 * x (n + 4) + b2 * x (n + 3) + b3 * x (n + 2)
        + a1 * y (n + 4) + a2 * y (n + 3) + a3 * y (n + 2) + a4 * y (n + 1)) {m : Nat} (hx : ∀ i, m ≤ i → x (i + 1) = -x i) :
    Tends (fun n => y n - g * x n) 0 := by
  refine .of_shift (m + 1) (hdec (fun n => y (n + (m + 1)) - g * x (n + (m + 1))) fun n => ?_)
  have h := hy (n + m)
  have e1 := hx (n + m + 1) (by omega)
  have e2 := hx (n + m + 2) (by omega)
  have e3 := hx (n + m + 3) (by omega)
  have e4 := hx (n + m + 4) (by omega)
  rw [e1] at e2; rw [e2] at e3; rw [e3] at e4
  rw [e1, e2, e3, e4] at h
  simp only [show n + 4 + (m + 1) = n + m + 5 by omega, show n + 3 + (m + 1) = n + m + 4 by omega, show n + 2 + (m + 1) = n + m + 3 by omega,
    show n + 1 + (m + 1) = n + m + 2 by omega, show n + (m + 1) = n + m + 1 by omega]
  rw [e1, e2, e3, e4]
  linear_combination h - x (n + m + 1) * hg

theorem mutes [CMath R] {batch : (Nat → R) → List R → M (Ret × List R)} {o : Nat → R} {s : Nat} {y : (Nat → R) → Nat → R} {g : R}
    (hc : Computes batch o s fun x j => y x (j + s))
    (h : ∀ x m, (∀ i, m ≤ i → x (i + 1) = -x i) → ∃ k : R, |k| ≤ g ∧ Tends (fun n => y x n - k * x n) 0) : Mutes batch o s g := by
  intro x c m hx ε hε
  obtain ⟨k, hk, ht⟩ := h x m fun i hi => (hx i hi).2
  obtain ⟨n0, h0⟩ := ht ε hε
  refine ⟨n0 + m, fun N hN => ⟨_, hc x N, by simp [pre], fun j v hj hv => ?_⟩⟩
  simp only [pre, List.getElem?_map, Option.map_eq_some_iff] at hv
  obtain ⟨i, hi, rfl⟩ := hv
  obtain ⟨_, e⟩ := List.getElem?_eq_some_iff.1 hi
  have e : i = j := by simpa using e.symm
  subst e
  have h1 := h0 (i + s) (by omega)
  rw [sub_zero] at h1
  have h2 : |k * x (i + s)| ≤ g * |c| := by
    rw [abs_mul, (hx (i + s) (by omega)).1]
    exact mul_le_mul_of_nonneg_right hk (abs_nonneg _)
  calc |y x (i + s)| = |k * x (i + s) + (y x (i + s) - k * x (i + s))| := by congr 1; ring
    _ ≤ _ := (abs_add_le _ _).trans (add_le_add h2 h1)

end Alternate

section Tables
variable {R : Type} [Field R] [LinearOrder R] [IsStrictOrderedRing R] [CMath R] [Archimedean R]
attribute [local irreducible] Cutoff.row

/-- bf3 removes the fastest oscillation entirely. -/
theorem bf3_mutes (o : Nat → R) (h : 1 ≤ o 0) (q : Nat) (h1 : 1 ≤ q) (h2 : q ≤ 20) (hc : toInt (o 0) = .ok ((2 * q : Nat) : Int)) (s : Nat)
    (hs : bf3Start o = .ok (s : Int)) : Mutes bf3Batch o s 0 := by
  refine Alternate.mutes (y := iir [coef bf3B0 q, coef bf3B1 q, coef bf3B2 q, coef bf3B3 q] [coef bf3A1 q, coef bf3A2 q, coef bf3A3 q])
    (bf3_value o h q h1 h2 hc s hs) fun x m hx => ⟨0, by simp, ?_⟩
  have hn := rows (P := fun i => bf3B0.getD i 0 - bf3B1.getD i 0 + bf3B2.getD i 0 - bf3B3.getD i 0 = 0) (by decide +kernel) q h1 h2
  have hr := bf3_row ⟨q - 1, by omega⟩
  obtain ⟨hS, hh⟩ := Converge.row_half hr
  refine Alternate.table' (fun z hz ε hε => by simpa only [sub_zero] using Gain.decays 80 hS hh hz ε hε)
    (b0 := (bf3B0.getD (q - 1) 0 : R)) (b1 := (bf3B1.getD (q - 1) 0 : R)) (b2 := (bf3B2.getD (q - 1) 0 : R)) (b3 := (bf3B3.getD (q - 1) 0 : R)) ?_ (fun n => ?_) hx
  · rw [zero_mul]; exact_mod_cast hn.symm
  · rw [iir_unfold]
    simp only [dot3, dot4, past_getD, coef_cast, show 0 + 1 ≤ n + 5 + 1 by omega, show 1 + 1 ≤ n + 5 + 1 by omega, show 2 + 1 ≤ n + 5 + 1 by omega,
      show 3 + 1 ≤ n + 5 + 1 by omega, show 0 + 1 ≤ n + 5 by omega, show 1 + 1 ≤ n + 5 by omega, show 2 + 1 ≤ n + 5 by omega,
      if_true, show n + 5 + 1 - (0 + 1) = n + 5 by omega, show n + 5 + 1 - (1 + 1) = n + 4 by omega, show n + 5 + 1 - (2 + 1) = n + 3 by omega,
      show n + 5 + 1 - (3 + 1) = n + 2 by omega, show n + 5 - (0 + 1) = n + 4 by omega, show n + 5 - (1 + 1) = n + 3 by omega,
      show n + 5 - (2 + 1) = n + 2 by omega]
    push_cast
    ring

/-- bf2 removes it up to the rounding of its table: less than one part in 2.5 million is left. -/
theorem bf2_mutes (o : Nat → R) (h : 1 ≤ o 0) (q : Nat) (h1 : 1 ≤ q) (h2 : q ≤ 20) (hc : toInt (o 0) = .ok ((2 * q : Nat) : Int)) (s : Nat)
    (hs : bf2Start o = .ok (s : Int)) : Mutes bf2Batch o s (1 / 2500000) := by
  have hn := rows (P := fun i => 0 < 1000000 + bf2A1.getD i 0 - bf2A2.getD i 0 ∧
    2500000 * (bf2B0.getD i 0 - bf2B1.getD i 0 + bf2B2.getD i 0) ≤ 1000000 + bf2A1.getD i 0 - bf2A2.getD i 0 ∧
    -(1000000 + bf2A1.getD i 0 - bf2A2.getD i 0) ≤ 2500000 * (bf2B0.getD i 0 - bf2B1.getD i 0 + bf2B2.getD i 0)) (by decide +kernel) q h1 h2
  have hD : (0 : R) < 1000000 + bf2A1.getD (q - 1) 0 - bf2A2.getD (q - 1) 0 := by exact_mod_cast hn.1
  refine Alternate.mutes (y := iir [coef bf2B0 q, coef bf2B1 q, coef bf2B2 q] [coef bf2A1 q, coef bf2A2 q])
    (bf2_value o h q h1 h2 hc s hs) fun x m hx =>
      ⟨(bf2B0.getD (q - 1) 0 - bf2B1.getD (q - 1) 0 + bf2B2.getD (q - 1) 0) / (1000000 + bf2A1.getD (q - 1) 0 - bf2A2.getD (q - 1) 0), ?_, ?_⟩
  · have u : (2500000 : R) * (bf2B0.getD (q - 1) 0 - bf2B1.getD (q - 1) 0 + bf2B2.getD (q - 1) 0) ≤ 1000000 + bf2A1.getD (q - 1) 0 - bf2A2.getD (q - 1) 0 := by
      exact_mod_cast hn.2.1
    have v : -(1000000 + bf2A1.getD (q - 1) 0 - bf2A2.getD (q - 1) 0 : R) ≤ 2500000 * (bf2B0.getD (q - 1) 0 - bf2B1.getD (q - 1) 0 + bf2B2.getD (q - 1) 0) := by
      exact_mod_cast hn.2.2
    rw [abs_le, le_div_iff₀ hD, div_le_iff₀ hD]
    constructor <;> linarith
  have hr := bf2_row ⟨q - 1, by omega⟩
  obtain ⟨hS, hh⟩ := Converge.row_half hr
  refine Alternate.table' (fun z hz ε hε => by simpa only [sub_zero] using Gain.decays 30 hS hh hz ε hε)
    (b0 := (bf2B0.getD (q - 1) 0 : R)) (b1 := (bf2B1.getD (q - 1) 0 : R)) (b2 := (bf2B2.getD (q - 1) 0 : R)) (b3 := 0) ?_ (fun n => ?_) hx
  · push_cast
    rw [add_zero, sub_zero, sub_zero]
    exact div_mul_cancel₀ _ hD.ne'
  · rw [iir_unfold]
    simp only [dot2, dot3, past_getD, coef_cast, show 0 + 1 ≤ n + 5 + 1 by omega, show 1 + 1 ≤ n + 5 + 1 by omega, show 2 + 1 ≤ n + 5 + 1 by omega,
      show 0 + 1 ≤ n + 5 by omega, show 1 + 1 ≤ n + 5 by omega,
      if_true, show n + 5 + 1 - (0 + 1) = n + 5 by omega, show n + 5 + 1 - (1 + 1) = n + 4 by omega, show n + 5 + 1 - (2 + 1) = n + 3 by omega,
      show n + 5 - (0 + 1) = n + 4 by omega, show n + 5 - (1 + 1) = n + 3 by omega]
    push_cast
    ring
end Tables

/-- ssmooth removes it entirely. -/
theorem ssmooth_mutes (o : Nat → ℝ) : Mutes ssmoothBatch o 0 0 := by
  refine Alternate.mutes (y := iir [ssC1 / 2, ssC1 / 2] [ssC2, ssC3]) (ssmooth_value o) fun x m hx => ⟨0, by simp, ?_⟩
  refine Alternate.table' (fun z hz ε hε => by simpa only [sub_zero] using ss_decays z hz ε hε) (b0 := ssC1 / 2) (b1 := ssC1 / 2) (b2 := 0) (b3 := 0)
    (by ring) (fun n => ?_) hx
  rw [iir_unfold]
  simp only [dot2, past_getD, show 0 + 1 ≤ n + 5 + 1 by omega, show 1 + 1 ≤ n + 5 + 1 by omega,
    show 0 + 1 ≤ n + 5 by omega, show 1 + 1 ≤ n + 5 by omega,
    if_true, show n + 5 + 1 - (0 + 1) = n + 5 by omega, show n + 5 + 1 - (1 + 1) = n + 4 by omega,
    show n + 5 - (0 + 1) = n + 4 by omega, show n + 5 - (1 + 1) = n + 3 by omega]
  ring

/- The hypotheses: a period of 10, and the price 3, -3, 3, … -/
example (x : Nat → ℝ) (hx : ∀ i, x i = (-1) ^ i * 3) : ∀ i, 0 ≤ i → |x i| = |(3 : ℝ)| ∧ x (i + 1) = -x i := fun i _ => by
  refine ⟨by rw [hx, abs_mul, abs_pow, abs_neg, abs_one, one_pow, one_mul], by rw [hx, hx, pow_succ]; ring⟩
example : toInt (opts [10] 0) = .ok ((2 * 5 : Nat) : Int) ∧ bf3Start (opts [10]) = .ok ((4 : Nat) : Int) ∧ bf2Start (opts [10]) = .ok ((3 : Nat) : Int) := by
  decide +kernel

end Verif
