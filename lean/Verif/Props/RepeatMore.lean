/- C90, continued: filters. -/
import Verif.Props.Repeat

namespace Verif
open Spec Finset Memory
open Converge (Tends)
set_option linter.unusedSectionVars false

section
variable {R : Type} [Field R] [LinearOrder R] [IsStrictOrderedRing R] [CMath R] [Archimedean R]

/-! ### More windows -/
theorem aroon_repeats (o : Nat → R) (p : Nat) (hc : toInt (o 0) = .ok (p : Int)) (hp : 1 ≤ p) : Repeats aroonBatch o :=
  repeats (aroon_window o p hc hp) (aroon_run o p hc hp)
theorem aroonosc_repeats (o : Nat → R) (p : Nat) (hc : toInt (o 0) = .ok (p : Int)) (hp : 1 ≤ p) : Repeats aroonoscBatch o :=
  repeats (aroonosc_window o p hc hp) (aroonosc_run o p hc hp)
/-- Partial: the length of the window is within the range of `int`. -/
theorem hf_repeats_partial [LawfulAbs R] (o : Nat → R) (k : Nat) (hc : toInt (o 0) = .ok (k : Int)) (hk : 1 ≤ k) (hb : 2 * k + 1 ≤ 2147483647) (ht : 0 ≤ o 1) :
    Repeats hfBatch o := repeats (hf_window_partial o k hc hk hb ht) (hf_run o k hc hk hb ht)
/-- Partial: the length of the window is within the range of `int`. -/
theorem hfsma_repeats_partial [LawfulAbs R] [LawfulTrunc R] [LawfulRound R] (o : Nat → R) (p k : Nat) (h0 : toInt (o 0) = .ok (p : Int)) (h1 : toInt (o 1) = .ok (k : Int))
    (hp : 1 ≤ p) (hk : 1 ≤ k) (hb : 2 * k + 1 ≤ 2147483647) (hb2 : p - 1 + 2 * k ≤ 2147483647) (ht : 0 ≤ o 2) : Repeats hfsmaBatch o :=
  repeats (hfsma_window_partial o p k h0 h1 hp hk hb hb2 ht) (hfsma_value_run o p k h0 h1 hp hk hb hb2 ht)

/-! ### Compounded changes -/
theorem prod_flat {f : Nat → R} {q m : Nat} (hf : Cycles f q m) {j : Nat} (hj : m ≤ j) : ∏ k ∈ range q, f (j + k) = ∏ k ∈ range q, f (m + k) := by
  induction j, hj using Nat.le_induction with
  | base => rfl
  | succ j hj ih =>
    rw [← ih]
    rcases q with _ | q
    · rfl
    · rw [prod_range_succ, prod_range_succ' (fun k => f (j + k)), show j + 1 + q = j + (q + 1) by omega, hf j hj]
      congr 1
      exact prod_congr rfl fun k _ => by rw [Nat.add_right_comm, Nat.add_assoc]

theorem compounds {ρ : Type} {batch : (Nat → R) → List ρ → M (Ret × List R)} {o : Nat → R} {s : Nat} {a : R} {f : (Nat → ρ) → Nat → R}
    (hc : Computes batch o s fun x j => a * ∏ k ∈ range j, f x k) (h : ∀ x q m, Cycles x q m → Cycles (f x) q m) : Compounds batch o :=
  ⟨s, fun x q m hx => ⟨_, fun N => ⟨_, hc x N, by simp [pre], fun j v v' hj hv hv' => by
    rw [pre_get? hv, pre_get? hv']
    show a * ∏ k ∈ range (j + q), f x k = a * (∏ k ∈ range j, f x k) * _
    rw [prod_range_add, prod_flat (h x q m hx) hj, mul_assoc]⟩⟩⟩

theorem nvi_compounds (o : Nat → R) : Compounds nviBatch o :=
  compounds (nvi_value o) fun x q m hx => cycles_next hx
    (f := fun x k => if (x (k + 1)).volume < (x k).volume then 1 + relChange x k else 1)
    (fun a b => if b.volume < a.volume then 1 + (b.close - a.close) / a.close else 1) fun i => rfl
theorem pvi_compounds (o : Nat → R) : Compounds pviBatch o :=
  compounds (pvi_value o) fun x q m hx => cycles_next hx
    (f := fun x k => if (x k).volume < (x (k + 1)).volume ∧ 0 < (x k).volume then 1 + relChange x k else 1)
    (fun a b => if a.volume < b.volume ∧ 0 < a.volume then 1 + (b.close - a.close) / a.close else 1) fun i => rfl

/-! ### Filters -/
/-- Partial: any other `beta` is accepted too. -/
theorem rmta_repeats_partial (o : Nat → R) (p : Nat) (hc : toInt (o 0) = .ok (p : Int)) (hp : 1 ≤ p) (h : |o 1| < 1) : RepeatsInTheEnd rmtaBatch o id :=
  repeatsEnd (rmta_run o p hc hp) fun x q m hx => by
    obtain ⟨off, hoff, ho⟩ : ∃ off, off = (if p = 1 then 0 else 1) ∧ off ≤ p := ⟨_, rfl, by split <;> omega⟩
    rw [← hoff]
    generalize o 1 = g at *
    have hu : Closes (fun n => x (off + n)) q := ((closes_of hx).shift off).congr 0 fun n _ => by rw [Nat.add_comm off]
    have hb : Closes (fun n => (rmtaSt g off x n).1) q := Closes.first h (fun n => by simp only [rmtaSt]; push_cast; ring) hu
    have hr : Closes (fun n => (rmtaSt g off x n).2) q :=
      Closes.first h (fun n => by simp only [rmtaSt]; push_cast; ring) (hu.comb hb ((1 - g) * 2) (-(1 - g) * (1 - g)))
    exact (hr.shift (p - off)).congr 0 fun n _ => by
      simp only [id]; rw [show n + p - off = n + (p - off) by omega]

/-- The differences over one cycle obey the recursion without input and die out. -/
theorem Closes.table {S a1 a2 a3 a4 : Int} (K : Nat) (hS : 0 < S) (hc : Gain.half S a1 a2 a3 a4 K a1 a2 a3 a4 S = true) {b0 : R}
    (hg : 1 * ((S : R) - a1 - a2 - a3 - a4) = b0 + 0 + 0 + 0) {x y : Nat → R}
    (hy : ∀ n, (S : R) * y (n + 5) = b0 * x (n + 5) + a1 * y (n + 4) + a2 * y (n + 3) + a3 * y (n + 2) + a4 * y (n + 1))
    {q m : Nat} (hx : Cycles x q m) : Closes y q := by
  have t := Converge.table (R := R) K hS hc hg (x := fun j => x (j + q) - x j) (y := fun j => y (j + q) - y j)
    (fun n => by
      have e1 := hy n
      have e2 := hy (n + q)
      simp only [Nat.add_right_comm n q] at e2
      linear_combination e2 - e1) (c := 0) ⟨m, fun i hi => sub_eq_zero.2 (hx i hi)⟩
  rwa [one_mul] at t

theorem gf1_repeats (o : Nat → R) (q : Nat) (h1 : 1 ≤ q) (h2 : q ≤ 20) (hc : toInt (o 0) = .ok ((2 * q : Nat) : Int)) : RepeatsInTheEnd gf1Batch o id :=
  repeatsEnd (gf1_value o q h1 h2 hc) fun x c m hx => by
    have hr := rows (P := fun i => Cutoff.row i 4999 10000 5001 10000 1000000 (gf1A1.getD i 0) 0 0 0 (gf1B0.getD i 0) 0 0 0 8 = true) gf1_row q h1 h2
    have hs := gf1_sum (R := R) q h1 h2
    obtain ⟨hS, hh⟩ := Converge.row_half hr
    simp only [coef_cast] at hs ⊢
    exact Closes.table (R := R) 8 hS hh (b0 := (gf1B0.getD (q - 1) 0 : R)) (y := iir [(gf1B0.getD (q - 1) 0 : R) / 1000000] [(gf1A1.getD (q - 1) 0 : R) / 1000000] x)
      (by field_simp at hs; push_cast; linear_combination -hs) (fun n => by
      rw [iir_unfold]
      simp only [dot1, past_getD, show 0 + 1 ≤ n + 5 + 1 by omega, show 0 + 1 ≤ n + 5 by omega, if_true, Nat.add_sub_cancel, Nat.zero_add,
        show n + 5 - 1 = n + 4 by omega]
      push_cast
      ring) hx

theorem gf2_repeats (o : Nat → R) (q : Nat) (h1 : 1 ≤ q) (h2 : q ≤ 20) (hc : toInt (o 0) = .ok ((2 * q : Nat) : Int)) : RepeatsInTheEnd gf2Batch o id :=
  repeatsEnd (gf2_value o q h1 h2 hc) fun x c m hx => by
    have hr := rows (P := fun i => Cutoff.row i 4999 10000 5001 10000 (gf2B0.getD i 0 + gf2A1.getD i 0 + gf2A2.getD i 0)
      (gf2A1.getD i 0) (gf2A2.getD i 0) 0 0 (gf2B0.getD i 0) 0 0 0 20 = true) gf2_row q h1 h2
    obtain ⟨hS, hh⟩ := Converge.row_half hr
    have hS' : ((gf2B0.getD (q - 1) 0 + gf2A1.getD (q - 1) 0 + gf2A2.getD (q - 1) 0 : Int) : R) ≠ 0 := by exact_mod_cast hS.ne'
    exact Closes.table (R := R) 20 hS hh (b0 := (gf2B0.getD (q - 1) 0 : R)) (y := iir [coef gf2B0 q / (coef gf2B0 q + coef gf2A1 q + coef gf2A2 q)]
      [coef gf2A1 q / (coef gf2B0 q + coef gf2A1 q + coef gf2A2 q), coef gf2A2 q / (coef gf2B0 q + coef gf2A1 q + coef gf2A2 q)] x)
      (by push_cast; ring) (fun n => by
      rw [iir_unfold]
      simp only [dot1, dot2, past_getD, coef_cast, show 0 + 1 ≤ n + 5 + 1 by omega, show 0 + 1 ≤ n + 5 by omega, show 1 + 1 ≤ n + 5 by omega, if_true,
        show n + 5 + 1 - (0 + 1) = n + 5 by omega, show n + 5 - (0 + 1) = n + 4 by omega, show n + 5 - (1 + 1) = n + 3 by omega]
      push_cast at hS' ⊢
      field_simp
      ring) hx

end

theorem Closes.second {z v : Nat → ℝ} {a b : ℝ} {q : Nat} (hb : b < 1) (ha : |a| < 1 + b) (hz : ∀ n, z (n + 2) = a * z (n + 1) - b * z n + v n)
    (hv : Closes v q) : Closes z q := by
  have := Converge.second (z := fun n => z (n + q) - z n) (p := a) (q := b) hb ha (fun n => by
    show z (n + 2 + q) - z (n + 2) = _
    have e := hz (n + q)
    rw [show n + q + 2 = n + 2 + q by omega, show n + q + 1 = n + 1 + q by omega] at e
    rw [e, hz n]; ring) hv
  rwa [zero_div] at this

theorem rema_repeats (o : Nat → ℝ) (h1 : 1 ≤ o 0) (h2 : 0 ≤ o 1) : RepeatsInTheEnd remaBatch o id := by
  obtain ⟨y, hc, hy⟩ := rema_value o h1 h2
  refine repeatsEnd hc fun x q m hx => ?_
  obtain ⟨a, ha⟩ : ∃ a, a = 2 / (1 + o 0) := ⟨_, rfl⟩
  have a0 : 0 < a := by rw [ha]; positivity
  have a1 : a ≤ 1 := by rw [ha, div_le_one (by linarith)]; linarith
  have hl : 0 < 1 + o 1 := by linarith
  obtain ⟨-, -, hr⟩ := hy x
  rw [← ha] at hr
  exact Closes.second (a := (1 - a + 2 * o 1) / (1 + o 1)) (b := o 1 / (1 + o 1)) (v := fun n => a / (1 + o 1) * x (n + 2) + 0 * x (n + 2))
    (by rw [div_lt_one hl]; linarith)
    (by rw [abs_div, abs_of_pos hl, abs_of_nonneg (by linarith), div_lt_iff₀ hl, add_mul, div_mul_cancel₀ _ hl.ne']; linarith)
    (fun n => by show y x (n + 2) = _; rw [hr n]; simp only [id]; field_simp; ring) (((closes_of hx).shift 2).comb ((closes_of hx).shift 2) _ 0)

theorem Closes.ss {x : Nat → ℝ} {q : Nat} (h : Closes x q) : Closes (iir [ssC1 / 2, ssC1 / 2] [ssC2, ssC3] x) q := by
  obtain ⟨k1, k2⟩ := ss_coefs
  rw [abs_le] at k1 k2
  exact Closes.second (a := ssC2) (b := -ssC3) (by linarith [k2.1]) (abs_lt.2 ⟨by linarith [k1.1, k2.2], by linarith [k1.2, k2.2]⟩)
    (fun n => by rw [iir2_rec]; ring) ((h.shift 2).comb (h.shift 1) (ssC1 / 2) (ssC1 / 2))

theorem ssmooth_repeats (o : Nat → ℝ) : RepeatsInTheEnd ssmoothBatch o id :=
  repeatsEnd (ssmooth_value o) fun _ _ _ hx => (closes_of hx).ss

theorem roof_repeats (o : Nat → ℝ) : RepeatsInTheEnd roofBatch o id :=
  repeatsEnd (roof_value o) fun x q m hx => by
    refine Closes.ss ?_
    obtain ⟨a0, a2⟩ := roof_alpha
    have hr : |1 - (roofAlpha : ℝ)| < 1 := abs_lt.2 ⟨by linarith, by linarith⟩
    obtain ⟨r, hr'⟩ : ∃ r, r = 1 - (roofAlpha : ℝ) := ⟨_, rfl⟩
    generalize (1 - (roofAlpha : ℝ) / 2) ^ 2 = k
    rw [← hr'] at hr ⊢
    have hr2 := abs_lt.1 hr
    have h := closes_of hx
    exact Closes.second (a := 2 * r) (b := r ^ 2) (by nlinarith) (abs_lt.2 ⟨by nlinarith, by nlinarith⟩)
      (v := fun n => 1 * (k * x (n + 2) + -2 * k * x (n + 1)) + k * x n)
      (fun n => by rw [iir3_rec]; ring) (((h.shift 2).comb (h.shift 1) k (-2 * k)).comb h 1 k)

/-! ### Concrete cases -/
example : RepeatsInTheEnd rmtaBatch (opts [4, 1/2] : Nat → ℚ) id := rmta_repeats_partial (opts [4, 1/2] : Nat → ℚ) 4 (by decide +kernel) (by omega) (by decide +kernel)
example : RepeatsInTheEnd gf2Batch (opts [10] : Nat → ℚ) id := gf2_repeats (opts [10] : Nat → ℚ) 5 (by omega) (by omega) (by decide +kernel)
example : RepeatsInTheEnd gf1Batch (opts [10] : Nat → ℚ) id := gf1_repeats (opts [10] : Nat → ℚ) 5 (by omega) (by omega) (by decide +kernel)
example : RepeatsInTheEnd remaBatch (ropts [5, 1 / 2]) id := rema_repeats (ropts [5, 1 / 2]) (by norm_num [ropts]) (by norm_num [ropts])
example : Repeats aroonBatch (opts [5] : Nat → ℚ) := aroon_repeats (opts [5] : Nat → ℚ) 5 (by decide +kernel) (by omega)
/-- On every cycle of two bars nvi gains a half. -/
example : nviBatch (opts [] : Nat → ℚ) [⟨2, 2⟩, ⟨3, 1⟩, ⟨2, 2⟩, ⟨3, 1⟩, ⟨2, 2⟩, ⟨3, 1⟩] = .ok (.okay, [1000, 1500, 1500, 2250, 2250, 3375]) := by decide +kernel
example : Cycles (fun i => ((i % 3 : Nat) : ℝ)) 3 0 := fun i _ => by simp

end Verif
