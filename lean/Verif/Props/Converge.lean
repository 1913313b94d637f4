/- C76: what the outputs do when the price stops moving. -/
import Verif.Spec.Converge
import Verif.Proof.Converge
import Verif.Proof.CutoffTables
import Verif.Props.Ema
import Verif.Props.Filters
import Verif.Props.Smooth
import Verif.Props.Adaptive
import Verif.Props.Average
import Verif.Props.Flow
import Verif.Props.Window
import Verif.Props.Volume
import Verif.Props.Osc
import Verif.Props.Fractal
import Verif.Props.Cycle

namespace Verif
open Spec
open Converge (Tends follows approaches)
set_option linter.unusedSectionVars false

section
variable {R : Type} [Field R] [LinearOrder R] [IsStrictOrderedRing R] [Archimedean R] [CMath R]

/-! ### Averages -/

theorem ema_follows (o : Nat → R) (p : Nat) (hc : toInt (o 0) = .ok (p : Int)) (hp : 1 ≤ p) : Follows emaBatch o 0 1 :=
  follows (ema_value o p hc hp) fun x c hx => by
    rw [one_mul]; exact Converge.ema (Converge.emaCoef_pos p) (Converge.emaCoef_lt p hp) (.of_rests hx)

theorem wilders_follows (o : Nat → R) (p : Nat) (hc : toInt (o 0) = .ok (p : Int)) (hp : 1 ≤ p) : Follows wildersBatch o (p - 1) 1 :=
  follows (wilders_value o p hc hp) fun x c hx => by
    rw [one_mul]; exact Converge.wilder p hp (.of_rests hx)

/-- Partial: the start index is computed without overflow. -/
theorem dema_follows_partial (o : Nat → R) (p : Nat) (hc : toInt (o 0) = .ok (p : Int)) (hp : 1 ≤ p) (hb : (p - 1) * 2 ≤ 2147483647) :
    Follows demaBatch o ((p - 1) * 2) 1 :=
  follows (dema_value_partial o p hc hp hb) fun x c hx => by
    have e {x : Nat → R} (h : Tends x c) := Converge.ema (Converge.emaCoef_pos p) (Converge.emaCoef_lt p hp) h
    have e1 := e (.of_rests hx)
    have := ((e1.shift ((p - 1) * 2)).mul_const 2).sub ((e (e1.shift (p - 1))).shift (p - 1))
    rwa [show 2 * c - c = 1 * c by ring] at this

/-- Partial: the start index is computed without overflow. -/
theorem tema_follows_partial (o : Nat → R) (p : Nat) (hc : toInt (o 0) = .ok (p : Int)) (hp : 1 ≤ p) (hb : (p - 1) * 3 ≤ 2147483647) :
    Follows temaBatch o ((p - 1) * 3) 1 :=
  follows (tema_value_partial o p hc hp hb) fun x c hx => by
    have e {x : Nat → R} (h : Tends x c) := Converge.ema (Converge.emaCoef_pos p) (Converge.emaCoef_lt p hp) h
    have e1 := e (.of_rests hx)
    have e2 := e (e1.shift (p - 1))
    have e3 := e (e2.shift (p - 1))
    have := (((e1.shift ((p - 1) * 3)).mul_const 3).sub ((e2.shift ((p - 1) * 2)).mul_const 3)).add (e3.shift (p - 1))
    rwa [show 3 * c - 3 * c + c = 1 * c by ring] at this

/-- Partial: periods 1 and 2 are out of bounds. -/
theorem zlema_follows_partial (o : Nat → R) (p : Nat) (hc : toInt (o 0) = .ok (p : Int)) (hp : 3 ≤ p) : Follows zlemaBatch o ((p - 1) / 2 - 1) 1 :=
  follows (zlema_value_partial o p hc hp) fun x c hx => by
    rw [one_mul]
    refine Converge.ema (Converge.emaCoef_pos p) (Converge.emaCoef_lt p (by omega)) (.of_shift 1 ?_)
    have := (((Tends.of_rests hx).shift ((p - 1) / 2)).mul_const 2).sub (.of_rests hx)
    rw [show 2 * c - c = c by ring] at this
    exact this.congr 0 fun n _ => by rw [if_neg (by omega), Nat.add_sub_cancel]

theorem gdema_tends {a v : R} (h0 : 0 < a) (h2 : a < 2) {x : Nat → R} {c : R} (h : Tends x c) : Tends (gdema a v x) c := by
  have e := Converge.ema h0 h2 h
  have := (e.mul_const (1 + v)).sub ((Converge.ema h0 h2 e).mul_const v)
  rwa [show (1 + v) * c - v * c = c by ring] at this

theorem t3_follows (o : Nat → R) (h0 : 1 ≤ o 0) (h1 : 0 ≤ o 1) : Follows t3Batch o 0 1 :=
  follows (t3_value o h0 h1) fun x c hx => by
    have g {x : Nat → R} (h : Tends x c) := gdema_tends (a := 2 / (o 0 + 1)) (v := o 1) (by positivity) (by rw [div_lt_iff₀ (by linarith)]; linarith) h
    rw [one_mul]; exact g (g (g (.of_rests hx)))

theorem ehma_follows [LawfulSqrt R] (o : Nat → R) (p : Nat) (hc : toInt (o 0) = .ok (p : Int)) (hp : 1 ≤ p) : Follows ehmaBatch o 0 1 :=
  follows (ehma_value o p hc hp) fun x c hx => by
    have hp' : (1 : R) ≤ p := by exact_mod_cast hp
    have hs0 := LawfulSqrt.sqrt_nonneg (p : R) (by linarith)
    have hs1 := LawfulSqrt.sqrt_sq (p : R) (by linarith)
    generalize CMath.sqrt (p : R) = s at *
    have hs : 0 < s := lt_of_le_of_ne hs0 fun h => by rw [← h] at hs1; linarith
    have e {a : R} (h0 : 0 < a) (h2 : a < 2) := Converge.ema h0 h2 (Tends.of_rests hx)
    have e1 := e (a := 2 / ((p : R) / 2 + 1)) (by positivity) (by rw [div_lt_iff₀ (by linarith)]; linarith)
    have e2 := e (a := 2 / ((p : R) + 1)) (by positivity) (by rw [div_lt_iff₀ (by linarith)]; linarith)
    have := (e1.mul_const 2).sub e2
    rw [show 2 * c - c = 1 * c by ring] at this
    exact Converge.ema (by positivity) (by rw [div_lt_iff₀ (by linarith)]; linarith) this

/-- kama: the squared weight never falls below that of period 30. -/
theorem kama_follows [LawfulAbs R] [LawfulPow R] (o : Nat → R) (p : Nat) (hc : toInt (o 0) = .ok (p : Int)) (hp : 1 ≤ p) :
    Follows kamaBatch o (p - 1) 1 :=
  follows (kama_value o p hc hp) fun x c ⟨m, hx⟩ => by
    have er : ∀ j, 0 ≤ effRatio p x j ∧ effRatio p x j ≤ 1 := by
      intro j
      unfold effRatio
      split
      · exact ⟨zero_le_one, le_rfl⟩
      · rename_i h
        have hpos : 0 < ∑ k ∈ Finset.range p, |x (j + k + 1) - x (j + k)| := lt_of_le_of_ne (Finset.sum_nonneg fun _ _ => abs_nonneg _) (Ne.symm h)
        refine ⟨by positivity, (div_le_one hpos).2 ?_⟩
        have : x (j + p) - x j = ∑ k ∈ Finset.range p, (x (j + k + 1) - x (j + k)) := by
          exact (Finset.sum_range_sub (fun k => x (j + k)) p).symm
        rw [this]
        exact Finset.abs_sum_le_sum_abs _ _
    have : Tends (fun n => kama p x n - c) 0 := by
      refine Converge.contract (w := fun _ => 0) (q := 1 - (2 / 31) ^ 2) (by norm_num) (by norm_num) m (fun n hn => ?_) (.const 0)
      rw [kama, hx (n + p) (by omega), abs_zero, add_zero]
      obtain ⟨w, hw⟩ : ∃ w, w = (effRatio p x n * (2 / 3 - 2 / 31) + 2 / 31) ^ 2 := ⟨_, rfl⟩
      have hw1 : (2 / 31) ^ 2 ≤ w := by rw [hw]; have := (er n).1; gcongr; norm_num; positivity
      have hw2 : w ≤ 1 := by
        rw [hw]
        have := er n
        have h0 : 0 ≤ effRatio p x n * (2 / 3 - 2 / 31) + 2 / 31 := by norm_num; linarith
        have h1 : effRatio p x n * (2 / 3 - 2 / 31) + 2 / 31 ≤ 1 := by norm_num; linarith
        nlinarith
      rw [← hw, show kama p x n + w * (c - kama p x n) - c = (1 - w) * (kama p x n - c) by ring, abs_mul, abs_of_nonneg (by linarith : 0 ≤ 1 - w)]
      exact mul_le_mul_of_nonneg_right (by linarith) (abs_nonneg _)
    have := this.add (.const (1 * c))
    simp only [one_mul, sub_add_cancel, zero_add] at this
    rwa [one_mul]

/-! ### Filters -/

theorem iir1_next (b0 a1 : R) (x : Nat → R) (n : Nat) : iir [b0] [a1] x (n + 1) = a1 * iir [b0] [a1] x n + b0 * x (n + 1) := by
  conv_lhs => unfold iir
  rw [iirPast_past]
  simp only [dot1, past_getD, Nat.zero_add, Nat.add_sub_cancel, show 1 ≤ n + 1 by omega, show 1 ≤ n + 1 + 1 by omega, if_true]
  ring
theorem iir2_next (b0 b1 a1 : R) (x : Nat → R) (n : Nat) : iir [b0, b1] [a1] x (n + 1) = a1 * iir [b0, b1] [a1] x n + (b0 * x (n + 1) + b1 * x n) := by
  conv_lhs => unfold iir
  rw [iirPast_past]
  simp only [dot1, dot2, past_getD, Nat.zero_add, Nat.add_sub_cancel, show 1 ≤ n + 1 by omega, show 1 ≤ n + 1 + 1 by omega, show 1 + 1 ≤ n + 1 + 1 by omega,
    show n + 1 + 1 - (1 + 1) = n by omega, if_true]
  ring

/-- lf with a damping below one. Partial: not from one on (`lf_follows_violates`). -/
theorem lf_follows_partial (o : Nat → R) (h0 : 0 ≤ o 0) (h1 : o 0 < 1) : Follows lfBatch o 0 1 :=
  follows (lf_value o h0) fun x c hx => by
    generalize o 0 = g at *
    have hg : |g| < 1 := abs_lt.2 ⟨by linarith, h1⟩
    have h1' : 1 - g ≠ 0 := by intro h; linarith
    have L0 : Tends (iir [1 - g] [g] x) c := by
      have := Converge.first hg (iir1_next (1 - g) g x) (((Tends.of_rests hx).shift 1).mul_const (1 - g))
      rwa [mul_div_cancel_left₀ _ h1'] at this
    have L {y : Nat → R} (hy : Tends y c) : Tends (iir [-g, 1] [g] y) c := by
      have := Converge.first hg (iir2_next (-g) 1 g y) (((hy.shift 1).mul_const (-g)).add (hy.mul_const 1))
      rwa [show -g * c + 1 * c = (1 - g) * c by ring, mul_div_cancel_left₀ _ h1'] at this
    have := (((L0.add ((L L0).mul_const 2)).add ((L (L L0)).mul_const 2)).add (L (L (L L0)))).mul_const (1 / 6)
    rw [show 1 / 6 * (c + 2 * c + 2 * c + c) = 1 * c by ring] at this
    exact this.congr 0 fun n _ => by ring

/-- rmta with `-1 < beta < 1`. Partial: any other `beta` is accepted too. -/
theorem rmta_follows_partial (o : Nat → R) (p : Nat) (hc : toInt (o 0) = .ok (p : Int)) (hp : 1 ≤ p) (h : |o 1| < 1) : Follows rmtaBatch o (p - 1) 1 :=
  follows (rmta_run o p hc hp) fun x c hx => by
    obtain ⟨off, hoff, ho⟩ : ∃ off, off = (if p = 1 then 0 else 1) ∧ off ≤ p := ⟨_, rfl, by split <;> omega⟩
    rw [← hoff]
    generalize o 1 = g at *
    have h1' : 1 - g ≠ 0 := by have := (abs_lt.1 h).2; intro h; linarith
    have hx' : Tends (fun n => x (off + n)) c := (Tends.of_rests hx).comp _ fun n => by omega
    have hb := Converge.first (f := fun n => (rmtaSt g off x n).1) (v := fun n => x (off + n)) h
      (fun n => by simp only [rmtaSt]; push_cast; ring) hx'
    have hr := Converge.first (f := fun n => (rmtaSt g off x n).2) (v := fun n => (1 - g) * (2 * x (off + n) - (1 - g) * (rmtaSt g off x n).1)) h
      (fun n => by simp only [rmtaSt]; push_cast; ring) (((hx'.mul_const 2).sub (hb.mul_const (1 - g))).mul_const (1 - g))
    rw [mul_div_cancel₀ _ h1', mul_div_cancel_left₀ _ h1', show 2 * c - c = 1 * c by ring] at hr
    exact hr.comp _ fun n => by omega

section Tables
attribute [local irreducible] Cutoff.row

theorem iir_unfold (b a : List R) (x : Nat → R) (n : Nat) : iir b a x n = dot b (past x (n + 1)) + dot a (past (iir b a x) n) := by
  conv_lhs => unfold iir
  rw [iirPast_past]

theorem gf1_follows (o : Nat → R) (q : Nat) (h1 : 1 ≤ q) (h2 : q ≤ 20) (hc : toInt (o 0) = .ok ((2 * q : Nat) : Int)) : Follows gf1Batch o 0 1 :=
  follows (gf1_value o q h1 h2 hc) fun x c hx => by
    have hr := rows (P := fun i => Cutoff.row i 4999 10000 5001 10000 1000000 (gf1A1.getD i 0) 0 0 0 (gf1B0.getD i 0) 0 0 0 8 = true) gf1_row q h1 h2
    have hs := gf1_sum (R := R) q h1 h2
    obtain ⟨hS, hh⟩ := Converge.row_half hr
    simp only [coef_cast] at hs ⊢
    push_cast at hs
    refine Converge.table 8 hS hh (b0 := (gf1B0.getD (q - 1) 0 : R)) (b1 := 0) (b2 := 0) (b3 := 0) ?_ (fun n => ?_) hx
    · field_simp at hs; push_cast; linear_combination -hs
    · rw [iir_unfold]
      simp only [dot1, past_getD, show 0 + 1 ≤ n + 5 + 1 by omega, show 0 + 1 ≤ n + 5 by omega, if_true, Nat.add_sub_cancel, Nat.zero_add,
        show n + 5 - 1 = n + 4 by omega]
      push_cast
      ring

theorem gf2_follows (o : Nat → R) (q : Nat) (h1 : 1 ≤ q) (h2 : q ≤ 20) (hc : toInt (o 0) = .ok ((2 * q : Nat) : Int)) : Follows gf2Batch o 0 1 :=
  follows (gf2_value o q h1 h2 hc) fun x c hx => by
    have hr := rows (P := fun i => Cutoff.row i 4999 10000 5001 10000 (gf2B0.getD i 0 + gf2A1.getD i 0 + gf2A2.getD i 0)
      (gf2A1.getD i 0) (gf2A2.getD i 0) 0 0 (gf2B0.getD i 0) 0 0 0 20 = true) gf2_row q h1 h2
    obtain ⟨hS, hh⟩ := Converge.row_half hr
    have hS' : ((gf2B0.getD (q - 1) 0 + gf2A1.getD (q - 1) 0 + gf2A2.getD (q - 1) 0 : Int) : R) ≠ 0 := by exact_mod_cast hS.ne'
    refine Converge.table 20 hS hh (b0 := (gf2B0.getD (q - 1) 0 : R)) (b1 := 0) (b2 := 0) (b3 := 0) ?_ (fun n => ?_) hx
    · push_cast; ring
    · rw [iir_unfold]
      simp only [dot1, dot2, past_getD, coef_cast, show 0 + 1 ≤ n + 5 + 1 by omega, show 0 + 1 ≤ n + 5 by omega, show 1 + 1 ≤ n + 5 by omega, if_true,
        show n + 5 + 1 - (0 + 1) = n + 5 by omega, show n + 5 - (0 + 1) = n + 4 by omega, show n + 5 - (1 + 1) = n + 3 by omega]
      push_cast at hS' ⊢
      field_simp
      ring

theorem gf3_follows (o : Nat → R) (q : Nat) (h1 : 1 ≤ q) (h2 : q ≤ 20) (hc : toInt (o 0) = .ok ((2 * q : Nat) : Int)) : Follows gf3Batch o 0 1 :=
  follows (gf3_ignores_period o q h1 h2 hc) fun x c hx => by
    obtain ⟨hS, hh⟩ := Converge.row_half (gf3_row 0)
    refine Converge.table 6 hS hh (b0 := 1) (b1 := 0) (b2 := 0) (b3 := 0) (by push_cast; ring) (fun n => ?_) hx
    rw [iir_unfold]
    simp only [dot1, dot3, past_getD, show 0 + 1 ≤ n + 5 + 1 by omega, show 0 + 1 ≤ n + 5 by omega, show 1 + 1 ≤ n + 5 by omega, show 2 + 1 ≤ n + 5 by omega,
      if_true, show n + 5 + 1 - (0 + 1) = n + 5 by omega, show n + 5 - (0 + 1) = n + 4 by omega, show n + 5 - (1 + 1) = n + 3 by omega,
      show n + 5 - (2 + 1) = n + 2 by omega]
    push_cast
    ring

/-- gf4 with periods up to 30. Partial: with longer ones it diverges (`gf4_gain_violates`). -/
theorem gf4_follows_partial (o : Nat → R) (q : Nat) (h1 : 1 ≤ q) (h2 : q ≤ 15) (hc : toInt (o 0) = .ok ((2 * q : Nat) : Int)) : Follows gf4Batch o 0 1 := by
  intro x c hx
  refine approaches 5 (fun N hN => gf4_run o q h1 (by omega) hc x N hN) ?_
  have hr := gf4_row ⟨q - 1, by omega⟩ (by show q - 1 < 15; omega)
  obtain ⟨hS, hh⟩ := Converge.row_half hr
  have hS' : ((gf4B0.getD (q - 1) 0 + gf4A1.getD (q - 1) 0 + gf4A2.getD (q - 1) 0 + gf4A3.getD (q - 1) 0 + gf4A4.getD (q - 1) 0 : Int) : R) ≠ 0 := by
    exact_mod_cast hS.ne'
  refine Converge.table 225 hS hh (b0 := (gf4B0.getD (q - 1) 0 : R)) (b1 := 0) (b2 := 0) (b3 := 0) ?_ (fun n => ?_) hx
  · push_cast; ring
  · show _ * gf4Y q x (n + 5) = _
    rw [gf4Y_filt]
    simp only [coef_cast, id]
    push_cast at hS' ⊢
    field_simp
    ring

theorem near_gain {b d k : Int} (hd : 0 < d) (h1 : k * (b - d) ≤ d) (h2 : -d ≤ k * (b - d)) (hk : 0 < k) : |(b : R) / d - 1| ≤ 1 / k := by
  have hd' : (0 : R) < d := by exact_mod_cast hd
  have hk' : (0 : R) < k := by exact_mod_cast hk
  have h1' : (k : R) * (b - d) ≤ d := by exact_mod_cast h1
  have h2' : -(d : R) ≤ k * (b - d) := by exact_mod_cast h2
  rw [show (b : R) / d - 1 = (b - d) / d by field_simp, abs_div, abs_of_pos hd', div_le_div_iff₀ hd' hk', one_mul]
  rcases abs_cases ((b : R) - d) with ⟨e, _⟩ | ⟨e, _⟩ <;> rw [e] <;> linarith

/-- bf2 approaches the price only up to the rounding of its table: the factor is within 1/18000 of one. -/
theorem bf2_follows (o : Nat → R) (h : 1 ≤ o 0) (q : Nat) (h1 : 1 ≤ q) (h2 : q ≤ 20) (hc : toInt (o 0) = .ok ((2 * q : Nat) : Int)) (s : Nat)
    (hs : bf2Start o = .ok (s : Int)) : ∃ g : R, |g - 1| ≤ 1 / 18000 ∧ Follows bf2Batch o s g := by
  have hn := rows (P := fun i => 0 < 1000000 - bf2A1.getD i 0 - bf2A2.getD i 0 ∧
    18000 * (bf2B0.getD i 0 + bf2B1.getD i 0 + bf2B2.getD i 0 - (1000000 - bf2A1.getD i 0 - bf2A2.getD i 0)) ≤ 1000000 - bf2A1.getD i 0 - bf2A2.getD i 0 ∧
    -(1000000 - bf2A1.getD i 0 - bf2A2.getD i 0) ≤ 18000 * (bf2B0.getD i 0 + bf2B1.getD i 0 + bf2B2.getD i 0 - (1000000 - bf2A1.getD i 0 - bf2A2.getD i 0)))
    (by decide +kernel) q h1 h2
  have hg := near_gain (R := R) hn.1 hn.2.1 hn.2.2 (by norm_num)
  push_cast at hg
  refine ⟨_, hg, follows (bf2_value o h q h1 h2 hc s hs) fun x c hx => ?_⟩
  have hr := bf2_row ⟨q - 1, by omega⟩
  obtain ⟨hS, hh⟩ := Converge.row_half hr
  have hD : (1000000 - (bf2A1.getD (q - 1) 0 : R) - (bf2A2.getD (q - 1) 0 : R)) ≠ 0 := by
    have : (0 : R) < ((1000000 - bf2A1.getD (q - 1) 0 - bf2A2.getD (q - 1) 0 : Int) : R) := by exact_mod_cast hn.1
    push_cast at this; exact this.ne'
  refine Tends.shift (f := iir [coef bf2B0 q, coef bf2B1 q, coef bf2B2 q] [coef bf2A1 q, coef bf2A2 q] x)
    (Converge.table 30 hS hh (b0 := (bf2B0.getD (q - 1) 0 : R)) (b1 := (bf2B1.getD (q - 1) 0 : R)) (b2 := (bf2B2.getD (q - 1) 0 : R)) (b3 := 0) ?_ (fun n => ?_) hx) s
  · push_cast
    rw [sub_zero, sub_zero, add_zero]
    exact div_mul_cancel₀ _ hD
  · rw [iir_unfold]
    simp only [dot2, dot3, past_getD, coef_cast, show 0 + 1 ≤ n + 5 + 1 by omega, show 1 + 1 ≤ n + 5 + 1 by omega, show 2 + 1 ≤ n + 5 + 1 by omega,
      show 0 + 1 ≤ n + 5 by omega, show 1 + 1 ≤ n + 5 by omega,
      if_true, show n + 5 + 1 - (0 + 1) = n + 5 by omega, show n + 5 + 1 - (1 + 1) = n + 4 by omega, show n + 5 + 1 - (2 + 1) = n + 3 by omega,
      show n + 5 - (0 + 1) = n + 4 by omega, show n + 5 - (1 + 1) = n + 3 by omega]
    push_cast
    ring

/-- bf3: the factor is within 1/3000 of one. -/
theorem bf3_follows (o : Nat → R) (h : 1 ≤ o 0) (q : Nat) (h1 : 1 ≤ q) (h2 : q ≤ 20) (hc : toInt (o 0) = .ok ((2 * q : Nat) : Int)) (s : Nat)
    (hs : bf3Start o = .ok (s : Int)) : ∃ g : R, |g - 1| ≤ 1 / 3000 ∧ Follows bf3Batch o s g := by
  have hn := rows (P := fun i => 0 < 1000000 - bf3A1.getD i 0 - bf3A2.getD i 0 - bf3A3.getD i 0 ∧
    3000 * (bf3B0.getD i 0 + bf3B1.getD i 0 + bf3B2.getD i 0 + bf3B3.getD i 0 - (1000000 - bf3A1.getD i 0 - bf3A2.getD i 0 - bf3A3.getD i 0))
      ≤ 1000000 - bf3A1.getD i 0 - bf3A2.getD i 0 - bf3A3.getD i 0 ∧
    -(1000000 - bf3A1.getD i 0 - bf3A2.getD i 0 - bf3A3.getD i 0)
      ≤ 3000 * (bf3B0.getD i 0 + bf3B1.getD i 0 + bf3B2.getD i 0 + bf3B3.getD i 0 - (1000000 - bf3A1.getD i 0 - bf3A2.getD i 0 - bf3A3.getD i 0)))
    (by decide +kernel) q h1 h2
  have hg := near_gain (R := R) hn.1 hn.2.1 hn.2.2 (by norm_num)
  push_cast at hg
  refine ⟨_, hg, follows (bf3_value o h q h1 h2 hc s hs) fun x c hx => ?_⟩
  have hr := bf3_row ⟨q - 1, by omega⟩
  obtain ⟨hS, hh⟩ := Converge.row_half hr
  have hD : (1000000 - (bf3A1.getD (q - 1) 0 : R) - (bf3A2.getD (q - 1) 0 : R) - (bf3A3.getD (q - 1) 0 : R)) ≠ 0 := by
    have : (0 : R) < ((1000000 - bf3A1.getD (q - 1) 0 - bf3A2.getD (q - 1) 0 - bf3A3.getD (q - 1) 0 : Int) : R) := by exact_mod_cast hn.1
    push_cast at this; exact this.ne'
  refine Tends.shift (f := iir [coef bf3B0 q, coef bf3B1 q, coef bf3B2 q, coef bf3B3 q] [coef bf3A1 q, coef bf3A2 q, coef bf3A3 q] x)
    (Converge.table 80 hS hh (b0 := (bf3B0.getD (q - 1) 0 : R)) (b1 := (bf3B1.getD (q - 1) 0 : R)) (b2 := (bf3B2.getD (q - 1) 0 : R))
      (b3 := (bf3B3.getD (q - 1) 0 : R)) ?_ (fun n => ?_) hx) s
  · push_cast
    rw [sub_zero]
    exact div_mul_cancel₀ _ hD
  · rw [iir_unfold]
    simp only [dot3, dot4, past_getD, coef_cast, show 0 + 1 ≤ n + 5 + 1 by omega, show 1 + 1 ≤ n + 5 + 1 by omega, show 2 + 1 ≤ n + 5 + 1 by omega,
      show 3 + 1 ≤ n + 5 + 1 by omega, show 0 + 1 ≤ n + 5 by omega, show 1 + 1 ≤ n + 5 by omega, show 2 + 1 ≤ n + 5 by omega,
      if_true, show n + 5 + 1 - (0 + 1) = n + 5 by omega, show n + 5 + 1 - (1 + 1) = n + 4 by omega, show n + 5 + 1 - (2 + 1) = n + 3 by omega,
      show n + 5 + 1 - (3 + 1) = n + 2 by omega, show n + 5 - (0 + 1) = n + 4 by omega, show n + 5 - (1 + 1) = n + 3 by omega,
      show n + 5 - (2 + 1) = n + 2 by omega]
    push_cast
    ring
end Tables

/-! ### Oscillators -/

theorem apo_rests (o : Nat → R) (p q : Nat) (hc : toInt (o 0) = .ok (p : Int)) (hc1 : toInt (o 1) = .ok (q : Int)) (hp : 1 ≤ p) (hq : 2 ≤ q) (hpq : p ≤ q) :
    Follows apoBatch o 1 0 :=
  follows (apo_value o p q hc hc1 hp hq hpq) fun x c hx => by
    have e {p : Nat} (hp : 1 ≤ p) := (Converge.ema (Converge.emaCoef_pos p) (Converge.emaCoef_lt p hp) (Tends.of_rests hx)).shift 1
    have := (e hp).sub (e (p := q) (by omega))
    rwa [sub_self, ← zero_mul c] at this

theorem ratio_rests {f g : Nat → R} {c : R} (hf : Tends f c) (hg : Tends g c) (h0 : c ≠ 0) (k : R) :
    Tends (fun n => if f n - g n = 0 then 0 else k * (f n - g n) / g n) 0 := by
  have h := (hf.sub hg).mul_const k
  rw [sub_self, mul_zero] at h
  exact (h.div hg h0).congr 0 fun n _ => by
    split
    · rename_i e; rw [e]; simp
    · rfl

/-- ppo, if the price does not rest at 0. -/
theorem ppo_rests_partial (o : Nat → R) (p q : Nat) (hc : toInt (o 0) = .ok (p : Int)) (hc1 : toInt (o 1) = .ok (q : Int)) (hp : 1 ≤ p) (hq : 2 ≤ q) (hpq : p ≤ q)
    (x : Nat → R) (c : R) (hx : Rests x c) (h0 : c ≠ 0) : Approaches ppoBatch o 1 x id 0 := by
  have e {p : Nat} (hp : 1 ≤ p) := (Converge.ema (Converge.emaCoef_pos p) (Converge.emaCoef_lt p hp) (Tends.of_rests hx)).shift 1
  exact approaches 0 (fun N _ => ppo_value o p q hc hc1 hp hq hpq x N) (ratio_rests (e hp) (e (p := q) (by omega)) h0 100)

/-- A price that falls to 0 and stays there leaves ppo with short period 1 at -100 for ever. -/
theorem ppo_rests_violates (o : Nat → R) (q : Nat) (hc : toInt (o 0) = .ok ((1 : Nat) : Int)) (hc1 : toInt (o 1) = .ok (q : Int)) (hq : 2 ≤ q) (N : Nat) :
    ppoBatch o (pre (fun n => if n = 0 then 1 else 0) N) = .ok (.okay, pre (fun _ => -100) (N - 1)) := by
  rw [ppo_value o 1 q hc hc1 (by omega) hq (by omega)]
  congr 3
  funext j
  have hs : Spec.ema (emaCoef 1 : R) (fun n => if n = 0 then (1 : R) else 0) (j + 1) = 0 := by
    rw [Spec.ema, show (emaCoef 1 : R) = 1 by unfold emaCoef; norm_num, if_neg (by omega)]; ring
  have hl : Spec.ema (emaCoef q : R) (fun n => if n = 0 then (1 : R) else 0) (j + 1) ≠ 0 := by
    have hq' : (2 : R) ≤ q := by exact_mod_cast hq
    have h1 : (0 : R) < 1 - emaCoef q := by
      unfold emaCoef
      have : 2 / ((q : R) + 1) < 1 := by rw [div_lt_one (by linarith)]; linarith
      linarith
    have : ∀ n, 0 < Spec.ema (emaCoef q : R) (fun n => if n = 0 then (1 : R) else 0) n := by
      intro n
      induction n with
      | zero => simp [Spec.ema]
      | succ n ih => rw [Spec.ema, if_neg (by omega)]; have := mul_pos h1 ih; linarith
    exact (this _).ne'
  simp only [hs, zero_sub, neg_eq_zero, hl, if_false]
  field_simp

theorem macdCoef_range (p q : Nat) (hp : 1 ≤ p) (hq : 1 ≤ q) : 0 < (macdCoef p q : R × R).1 ∧ (macdCoef p q : R × R).1 < 2 ∧
    0 < (macdCoef p q : R × R).2 ∧ (macdCoef p q : R × R).2 < 2 := by
  unfold macdCoef
  split
  · norm_num
  · exact ⟨Converge.emaCoef_pos p, Converge.emaCoef_lt p hp, Converge.emaCoef_pos q, Converge.emaCoef_lt q hq⟩

/-- macd: the line, the signal and the histogram. -/
theorem macd_rests (o : Nat → R) (p q r : Nat) (hc : toInt (o 0) = .ok (p : Int)) (hc1 : toInt (o 1) = .ok (q : Int)) (hc2 : toInt (o 2) = .ok (r : Int))
    (hp : 1 ≤ p) (hq : 2 ≤ q) (hpq : p ≤ q) (hr : 1 ≤ r) (x : Nat → R) (c : R) (hx : Rests x c) :
    Approaches macdBatch o (q - 1) x (·.macd) 0 ∧ Approaches macdBatch o (q - 1) x (·.signal) 0 ∧ Approaches macdBatch o (q - 1) x (·.hist) 0 := by
  obtain ⟨a, b, c', d⟩ := macdCoef_range (R := R) p q hp (by omega)
  have l := (Converge.ema a b (Tends.of_rests hx)).sub (Converge.ema c' d (Tends.of_rests hx))
  rw [sub_self] at l
  have s := Converge.ema (Converge.emaCoef_pos r) (Converge.emaCoef_lt r hr) (l.shift (q - 1))
  have h := (l.shift (q - 1)).sub s
  rw [sub_self] at h
  have hv := fun N => macd_value o p q r hc hc1 hc2 hp hq hpq hr x N
  exact ⟨approaches 0 (fun N _ => hv N) (l.shift (q - 1)), approaches 0 (fun N _ => hv N) s, approaches 0 (fun N _ => hv N) h⟩

/-- trix, if the price does not rest at 0. -/
theorem trix_rests_partial (o : Nat → R) (p : Nat) (hc : toInt (o 0) = .ok (p : Int)) (hp : 2 ≤ p) (hb : p * 3 ≤ 2147483647) (x : Nat → R) (c : R)
    (hx : Rests x c) (h0 : c ≠ 0) : Approaches trixBatch o (p * 3 - 2) x id 0 := by
  refine approaches 0 (fun N _ => trix_value_partial o p hc hp hb x N) ?_
  have e {x : Nat → R} (h : Tends x c) := Converge.ema (Converge.emaCoef_pos p) (Converge.emaCoef_lt p (by omega)) h
  have e3 := e ((e ((e (.of_rests hx)).shift (p - 1))).shift (p - 1))
  have d := (e3.shift p).sub (e3.comp (fun n => n + p - 1) fun n => by omega)
  rw [sub_self] at d
  have := (d.div (e3.shift p) h0).mul_const 100
  rw [mul_zero] at this
  refine this.congr 0 fun n _ => ?_
  simp only [id]
  split
  · rename_i h; erw [h]; simp
  · exact mul_comm _ _

/-- fi: when the close stops moving, whatever the volume. -/
theorem fi_rests (o : Nat → R) (h : 1 ≤ o 0) (x : Nat → CV R) (c : R) (hx : Rests (fun n => (x n).close) c) : Approaches fiBatch o 1 x id 0 := by
  refine approaches 0 (fun N _ => fi_value o h x N) ?_
  refine Converge.ema (by positivity) (by rw [div_lt_iff₀ (by linarith)]; linarith) (.of_rests ?_)
  obtain ⟨m, hm⟩ := hx
  exact ⟨m, fun i hi => by
    have h1 := hm i hi
    have h2 := hm (i + 1) (by omega)
    simp only [force] at *
    rw [h1, h2, sub_self, mul_zero]⟩

theorem trueRange_rests {x : Nat → HLC R} {c : HLC R} (hx : Rests x c) (hc : c.low ≤ c.close ∧ c.close ≤ c.high) :
    Rests (Spec.trueRange x) (c.high - c.low) := by
  obtain ⟨m, hm⟩ := hx
  refine ⟨m + 1, fun i hi => ?_⟩
  rw [Spec.trueRange, if_neg (by omega), hm i (by omega), hm (i - 1) (by omega), abs_of_nonneg (by linarith), abs_of_nonpos (by linarith)]
  exact max_eq_left (max_le (by linarith) (by linarith))

/-- atr approaches the range of the bar that is repeated. -/
theorem atr_rests [LawfulAbs R] (o : Nat → R) (p : Nat) (hc : toInt (o 0) = .ok (p : Int)) (hp : 1 ≤ p) (x : Nat → HLC R) (c : HLC R) (hx : Rests x c)
    (hb : c.low ≤ c.close ∧ c.close ≤ c.high) : Approaches atrBatch o (p - 1) x id (c.high - c.low) :=
  approaches 0 (fun N _ => atr_value o p hc hp x N) (Converge.wilder p hp (.of_rests (trueRange_rests hx hb)))

/-- kc: the middle approaches the close and the bands stand off by the option times the range of the bar. -/
theorem kc_rests (o : Nat → R) (h0 : 1 ≤ o 0) (h1 : 0 ≤ o 1) (x : Nat → HLC R) (hl : ∀ n, (x n).low ≤ (x n).high) (c : HLC R) (hx : Rests x c)
    (hb : c.low ≤ c.close ∧ c.close ≤ c.high) :
    Approaches kcBatch o 0 x (·.lower) (c.close - o 1 * (c.high - c.low)) ∧ Approaches kcBatch o 0 x (·.middle) c.close ∧
    Approaches kcBatch o 0 x (·.upper) (c.close + o 1 * (c.high - c.low)) := by
  have ha : (0 : R) < 2 / (o 0 + 1) := by positivity
  have hb' : 2 / (o 0 + 1) < 2 := by rw [div_lt_iff₀ (by linarith)]; linarith
  have m : Tends (Spec.ema (2 / (o 0 + 1)) (fun k => (x k).close)) c.close := Converge.ema ha hb' (.of_rests (by
    obtain ⟨m, hm⟩ := hx; exact ⟨m, fun i hi => congrArg _ (hm i hi)⟩))
  have t := (Converge.ema ha hb' (.of_rests (trueRange_rests hx hb))).mul_const (o 1)
  have hv := fun N => kc_value o h0 h1 x hl N
  exact ⟨approaches 0 (fun N _ => hv N) (m.sub t), approaches 0 (fun N _ => hv N) m, approaches 0 (fun N _ => hv N) (m.add t)⟩

/-- natr, if the close does not rest at 0. -/
theorem natr_rests_partial [LawfulAbs R] (o : Nat → R) (p : Nat) (hc : toInt (o 0) = .ok (p : Int)) (hp : 1 ≤ p) (x : Nat → HLC R) (c : HLC R) (hx : Rests x c)
    (hb : c.low ≤ c.close ∧ c.close ≤ c.high) (h0 : c.close ≠ 0) : Approaches natrBatch o (p - 1) x id (100 * (c.high - c.low) / c.close) := by
  refine approaches 0 (fun N _ => natr_value o p hc hp x N) ?_
  have t := (Converge.wilder p hp (.of_rests (trueRange_rests hx hb))).mul_const 100
  have l : Tends (fun j => (x (j + (p - 1))).close) c.close := .of_rests (by obtain ⟨m, hm⟩ := hx; exact ⟨m, fun i hi => congrArg _ (hm _ (by omega))⟩)
  refine (t.quot l h0).congr 0 fun n _ => ?_
  simp only [id]
  split
  · rename_i h; rw [h]; simp
  · rfl

/-- cvi, if the bar that is repeated has a range. Partial: `start` is computed without overflow. -/
theorem cvi_rests_partial (o : Nat → R) (p : Nat) (hc : toInt (o 0) = .ok (p : Int)) (hp : 2 ≤ p) (hb : p * 2 ≤ 2147483647) (x : Nat → HL R) (c : HL R)
    (hx : Rests x c) (h0 : c.high - c.low ≠ 0) : Approaches cviBatch o (p * 2 - 1) x id 0 := by
  refine approaches 0 (fun N _ => cvi_value_partial o p hc hp hb x N) ?_
  have e : Tends (Spec.ema (emaCoef p) fun k => (x k).high - (x k).low) (c.high - c.low) :=
    Converge.ema (Converge.emaCoef_pos p) (Converge.emaCoef_lt p (by omega)) (.of_rests (by
      obtain ⟨m, hm⟩ := hx; exact ⟨m, fun i hi => by show (x i).high - (x i).low = _; rw [hm i hi]⟩))
  have a := e.shift (p * 2 - 1)
  have b := e.comp (fun n => n + (p * 2 - 1) - p) fun n => by omega
  have d := (a.sub b).mul_const 100
  rw [sub_self, mul_zero] at d
  exact d.div b h0

/-- adosc, when bars without a range follow each other. -/
theorem adosc_rests (o : Nat → R) (s p : Nat) (hs : toInt (o 0) = .ok (s : Int)) (hc : toInt (o 1) = .ok (p : Int)) (h1 : 1 ≤ s) (h2 : s ≤ p)
    (x : Nat → HLCV R) (m : Nat) (hx : ∀ i, m ≤ i → (x i).high = (x i).low) : Approaches adoscBatch o (p - 1) x id 0 := by
  refine approaches 0 (fun N _ => adosc_value o s p hs hc h1 h2 x N) ?_
  have l : Rests (adLine x) (adLine x m) := ⟨m, fun i hi => by
    induction i, hi using Nat.le_induction with
    | base => rfl
    | succ i hi ih => rw [adLine, Finset.sum_range_succ, ← adLine, ih, closeLocation, if_pos (hx _ (by omega)), zero_mul, add_zero]⟩
  have e {p : Nat} (hp : 1 ≤ p) := Converge.ema (Converge.emaCoef_pos p) (Converge.emaCoef_lt p hp) (Tends.of_rests l)
  have := ((e h1).shift (p - 1)).sub ((e (p := p) (by omega)).shift (p - 1))
  rwa [sub_self] at this

/-! ### Averages with memory or a changing weight -/

/-- ahma. -/
theorem ahma_follows (o : Nat → R) (p : Nat) (hc : toInt (o 0) = .ok (p : Int)) (hp : 1 ≤ p) : Follows ahmaBatch o 0 1 := by
  intro x c ⟨m, hx⟩
  obtain ⟨y, hy⟩ := ahrens_exists p hp x
  refine approaches 0 (fun N _ => ahma_value o p hc hp x y hy N) ?_
  have hp' : (1 : R) ≤ p := by exact_mod_cast hp
  have hp0 : (0 : R) < p := by linarith
  obtain ⟨e, he⟩ : ∃ e : Nat → R, e = fun n => y (n + (m + p)) - c := ⟨_, rfl⟩
  have step : ∀ n, e (n + p) = e (n + (p - 1)) - (e (n + (p - 1)) + e n) / (2 * p) := by
    intro n
    simp only [he]
    rw [hy.2 (n + p + (m + p)) (by omega), hx _ (by omega), show n + p + (m + p) - 1 = n + (p - 1) + (m + p) by omega, show n + p + (m + p) - p = n + (m + p) by omega]
    field_simp
    ring
  have t : Tends e 0 := by
    refine Converge.windowed (q := 1 - 1 / p + (p - 1) / p / (2 * p)) ?_ ?_ (2 * p) fun n W hW => ?_
    · have : 0 ≤ ((p : R) - 1) / p / (2 * p) := by have : 0 ≤ (p : R) - 1 := by linarith
                                                   positivity
      have : 1 / (p : R) ≤ 1 := by rw [div_le_one hp0]; exact hp'
      linarith
    · have : ((p : R) - 1) / p / (2 * p) < 1 / p := by
        rw [div_div, div_lt_div_iff₀ (by positivity) hp0]; nlinarith
      linarith
    · have W0 : 0 ≤ W := (abs_nonneg _).trans (hW 0 (by omega))
      have d : ∀ i, p ≤ i → i < 2 * p → |e (n + i) - e (n + i - 1)| ≤ W / p := by
        intro i h1 h2
        have := step (n + i - p)
        rw [show n + i - p + p = n + i by omega, show n + i - p + (p - 1) = n + i - 1 by omega] at this
        rw [this, show e (n + i - 1) - (e (n + i - 1) + e (n + i - p)) / (2 * p) - e (n + i - 1) = -((e (n + i - 1) + e (n + i - p)) / (2 * p)) by ring,
          abs_neg, abs_div, abs_of_pos (by positivity : (0 : R) < 2 * p), div_le_div_iff₀ (by positivity) hp0]
        have a1 := hW (i - 1) (by omega)
        have a2 := hW (i - p) (by omega)
        rw [show n + (i - 1) = n + i - 1 by omega] at a1
        rw [show n + (i - p) = n + i - p by omega] at a2
        have a3 := abs_add_le (e (n + i - 1)) (e (n + i - p))
        have : |e (n + i - 1) + e (n + i - p)| ≤ 2 * W := by linarith
        have := mul_le_mul_of_nonneg_right this hp0.le
        linarith
      have far : ∀ k, k + 1 ≤ p → |e (n + p + k) - e (n + p)| ≤ k * (W / p) := by
        intro k
        induction k with
        | zero => intro _; simp
        | succ k ih =>
          intro hk
          have h1 := ih (by omega)
          have h2 := d (p + k + 1) (by omega) (by omega)
          rw [show n + (p + k + 1) = n + p + (k + 1) by omega, show n + p + (k + 1) - 1 = n + p + k by omega] at h2
          have := abs_sub_le (e (n + p + (k + 1))) (e (n + p + k)) (e (n + p))
          push_cast
          linarith
      have h1 := far (p - 1) (by omega)
      have h2 := step (n + p)
      have h3 := hW (p + (p - 1)) (by omega)
      rw [show n + (p + (p - 1)) = n + p + (p - 1) by omega] at h3
      rw [show n + 2 * p = n + p + p by omega, h2]
      have hcast : ((p - 1 : Nat) : R) = p - 1 := by push_cast [Nat.cast_sub hp]; ring
      rw [hcast] at h1
      generalize e (n + p + (p - 1)) = a at *
      generalize e (n + p) = b at *
      rw [show a - (a + b) / (2 * p) = (1 - 1 / p) * a + (a - b) / (2 * p) by field_simp; ring]
      refine (abs_add_le _ _).trans ?_
      have k1 : 0 ≤ 1 - 1 / (p : R) := by have : 1 / (p : R) ≤ 1 := by rw [div_le_one hp0]; exact hp'
                                          linarith
      rw [abs_mul, abs_of_nonneg k1, abs_div, abs_of_pos (by positivity : (0 : R) < 2 * p), add_mul]
      refine add_le_add (mul_le_mul_of_nonneg_left h3 k1) ?_
      rw [div_mul_eq_mul_div, div_le_div_iff_of_pos_right (by positivity)]
      refine h1.trans (le_of_eq ?_)
      ring
  have := t.add (.const c)
  simp only [he, sub_add_cancel, zero_add] at this
  rw [one_mul]
  exact .of_shift (m + p) this

/-- frama: the weight never falls below one hundredth. Partial: whole even periods. -/
theorem frama_follows_partial [LawfulCeil R] [LawfulTrunc R] [LawfulRound R] (o : Nat → R) (h : Nat) (ho : o 0 = (((2 * h : Nat) : Int) : R)) (hh : 1 ≤ h) (hb : 2 * h ≤ 2147483647)
    (h2 : ¬ o 1 < c! 2) (x : Nat → HL R) (c : HL R) (hx : Rests x c) : Approaches framaBatch o 0 x id ((c.high + c.low) / 2) := by
  refine approaches 0 (fun N _ => frama_value_partial o h ho hh hb h2 x N) ?_
  obtain ⟨m, hm⟩ := hx
  generalize CMath.log (2 / (1 + o 1)) = w
  have : Tends (fun n => framaAvg h w x n - (c.high + c.low) / 2) 0 := by
    refine Converge.contract (w := fun _ => 0) (q := 1 - 1 / 100) (by norm_num) (by norm_num) m (fun n hn => ?_) (.const 0)
    rw [framaAvg, hm (n + 1) (by omega), abs_zero, add_zero]
    split
    · rw [sub_self, abs_zero]; exact mul_nonneg (by norm_num) (abs_nonneg _)
    · obtain ⟨a, ha⟩ : ∃ a, a = fractalWeight h w x (n + 2 - 2 * h) := ⟨_, rfl⟩
      have a1 : a ≤ 1 := by rw [ha]; exact min_le_left _ _
      have a0 : 1 / 100 ≤ a := by rw [ha]; exact le_min (by norm_num) (le_max_left _ _)
      rw [← ha, show a * ((c.high + c.low) / 2) + (1 - a) * framaAvg h w x n - (c.high + c.low) / 2 = (1 - a) * (framaAvg h w x n - (c.high + c.low) / 2) by ring,
        abs_mul, abs_of_nonneg (by linarith : 0 ≤ 1 - a)]
      exact mul_le_mul_of_nonneg_right (by linarith) (abs_nonneg _)
  have := this.add (.const ((c.high + c.low) / 2))
  simp only [sub_add_cancel, zero_add] at this
  exact this

/-- mama and fama, if the slow limit is not 0. -/
theorem mama_follows_partial (o : Nat → R) (h0 : 0 ≤ o 0 ∧ o 0 ≤ 1) (h1 : 0 < o 1 ∧ o 1 ≤ 1) (x : Nat → R) (c : R) (hx : Rests x c) :
    Approaches mamaBatch o 6 x (·.mama) c ∧ Approaches mamaBatch o 6 x (·.fama) c := by
  obtain ⟨s, phase, alpha, mama, fama, -, hp, hv⟩ := mama_value o h0 ⟨h1.1.le, h1.2⟩ x
  obtain ⟨m, hm⟩ := hx
  have ha : ∀ t, o 1 ≤ alpha t ∧ alpha t ≤ 1 := fun t => by
    rw [hp.alpha_eq t]; exact ⟨le_max_left _ _, (alpha_bounds h0 ⟨h1.1.le, h1.2⟩ _).2⟩
  have b1 : ∀ (f : Nat → R) t, barsAgo f (t + 1) 1 = f t := fun f t => by simp [barsAgo]
  have t1 : Tends (fun n => mama n - c) 0 := by
    refine Converge.contract (w := fun _ => 0) (q := 1 - o 1) (by linarith [h1.2]) (by linarith [h1.1]) m (fun n hn => ?_) (.const 0)
    have := ha (n + 1)
    rw [hp.mama_eq (n + 1), b1, hm (6 + (n + 1)) (by omega), abs_zero, add_zero,
      show alpha (n + 1) * c + (1 - alpha (n + 1)) * mama n - c = (1 - alpha (n + 1)) * (mama n - c) by ring, abs_mul, abs_of_nonneg (by linarith)]
    exact mul_le_mul_of_nonneg_right (by linarith) (abs_nonneg _)
  have t2 : Tends (fun n => fama n - c) 0 := by
    refine Converge.contract (w := fun n => mama (n + 1) - c) (q := 1 - o 1 / 2) (by linarith [h1.2]) (by linarith [h1.1]) 0 (fun n hn => ?_) (t1.shift 1)
    have := ha (n + 1)
    rw [hp.fama_eq (n + 1), b1, show alpha (n + 1) / 2 * mama (n + 1) + (1 - alpha (n + 1) / 2) * fama n - c =
      (1 - alpha (n + 1) / 2) * (fama n - c) + alpha (n + 1) / 2 * (mama (n + 1) - c) by ring]
    refine (abs_add_le _ _).trans (add_le_add ?_ ?_)
    · rw [abs_mul, abs_of_nonneg (by linarith)]
      exact mul_le_mul_of_nonneg_right (by linarith) (abs_nonneg _)
    · rw [abs_mul, abs_of_nonneg (by linarith [h1.1])]
      exact mul_le_of_le_one_left (abs_nonneg _) (by linarith)
  have u1 := t1.add (.const c)
  have u2 := t2.add (.const c)
  simp only [sub_add_cancel, zero_add] at u1 u2
  exact ⟨approaches 0 (fun N _ => hv N) u1, approaches 0 (fun N _ => hv N) u2⟩

/-! ### Oscillators that keep their last reading -/

theorem freezes_of {ρ : Type} {batch : (Nat → R) → List ρ → M (Ret × List R)} {o : Nat → R} {s : Nat} {y : (Nat → ρ) → Nat → R} {x : Nat → ρ} (m : Nat)
    (hc : Computes batch o s y) (h : ∀ j, m ≤ j → y x (j + 1) = y x j) : Freezes batch o s x := by
  refine ⟨m, y x m, fun N => ⟨_, hc x N, by simp [pre], fun j v hj hv => ?_⟩⟩
  simp only [pre, List.getElem?_map, Option.map_eq_some_iff] at hv
  obtain ⟨i, hi, rfl⟩ := hv
  obtain ⟨_, e⟩ := List.getElem?_eq_some_iff.1 hi
  have : i = j := by simpa using e.symm
  subst this
  clear hi e
  induction i, hj using Nat.le_induction with
  | base => rfl
  | succ i hi ih => exact (h i hi).trans (ih (by omega))

theorem share_scale {a u d : R} (ha : a ≠ 0) : (if a * u = 0 then (0 : R) else 100 * (a * u / (a * u + a * d))) = if u = 0 then 0 else 100 * (u / (u + d)) := by
  simp only [mul_eq_zero, ha, false_or]
  split
  · rfl
  · rw [← mul_add, mul_div_mul_left _ _ ha]

/-- rsi does not return to its middle when the price stops moving: gains and losses fade at the same rate. -/
theorem rsi_freezes (o : Nat → R) (p : Nat) (hc : toInt (o 0) = .ok (p : Int)) (hp : 2 ≤ p) (x : Nat → R) (c : R) (hx : Rests x c) : Freezes rsiBatch o p x := by
  obtain ⟨m, hm⟩ := hx
  refine freezes_of m (rsi_value o p hc (by omega)) fun j hj => ?_
  have hp' : (2 : R) ≤ p := by exact_mod_cast hp
  have g : gain x (j + p) = 0 := by rw [gain, hm _ (by omega), hm _ (by omega)]; simp
  have l : loss x (j + p) = 0 := by rw [loss, hm _ (by omega), hm _ (by omega)]; simp
  have e {f : Nat → R} (hf : f (j + p) = 0) : Spec.wilder p f (j + 1) = (1 - 1 / p) * Spec.wilder p f j := by
    unfold Spec.wilder
    rw [Spec.ema, if_neg (by omega), Nat.add_sub_cancel, hf]; ring
  have ha : (1 - 1 / (p : R)) ≠ 0 := by
    have : 1 / (p : R) ≤ 1 / 2 := one_div_le_one_div_of_le (by norm_num) hp'
    intro h; linarith
  simp only [e g, e l]
  exact share_scale ha

/-- rmi with a smoothing period above 1, too. Partial: whole-number momentum periods. -/
theorem rmi_freezes_partial [LawfulTrunc R] [LawfulRound R] (o : Nat → R) (p : Nat) (h0 : 1 < o 0) (ho : o 1 = (p : R)) (hp : 1 ≤ p) (hb : p ≤ 2147483647)
    (x : Nat → R) (c : R) (hx : Rests x c) : Freezes rmiBatch o p x := by
  obtain ⟨m, hm⟩ := hx
  refine freezes_of m (rmi_value_partial o p h0.le ho hp hb) fun j hj => ?_
  have g : gainOver p x (j + 1) = 0 := by rw [gainOver, hm _ (by omega), hm _ (by omega)]; simp
  have l : lossOver p x (j + 1) = 0 := by rw [lossOver, hm _ (by omega), hm _ (by omega)]; simp
  have e {f : Nat → R} (hf : f (j + 1) = 0) : Spec.ema (2 / (1 + o 0)) f (j + 1) = (1 - 2 / (1 + o 0)) * Spec.ema (2 / (1 + o 0)) f j := by
    rw [Spec.ema, hf]; ring
  have ha : (1 - 2 / (1 + o 0)) ≠ 0 := by
    have : 2 / (1 + o 0) < 1 := by rw [div_lt_one (by linarith)]; linarith
    intro h; linarith
  unfold relMomentum
  rw [e g, e l]
  exact share_scale ha

/-- lf with a damping of one answers every input with zeros. -/
theorem lf_follows_violates (o : Nat → R) (h : o 0 = 1) (x : Nat → R) (N : Nat) : lfBatch o (pre x N) = .ok (.okay, pre (fun _ => 0) N) := by
  have z0 : ∀ (x : Nat → R) n, iir [1 - 1] [1] x n = 0 := by
    intro x n
    induction n with
    | zero => rw [iir_unfold]; simp [dot, past]
    | succ n ih => rw [iir1_next, ih]; ring
  have z1 : ∀ (x : Nat → R), (∀ n, x n = 0) → ∀ n, iir [-1, 1] [1] x n = 0 := by
    intro x hx n
    induction n with
    | zero => rw [iir_unfold]; simp [dot, past, hx]
    | succ n ih => rw [iir2_next, ih, hx, hx]; ring
  rw [lf_value o (by rw [h]; norm_num) x N, h]
  congr 3
  funext n
  have a0 := z0 x
  have a1 := z1 _ a0
  have a2 := z1 _ a1
  have a3 := z1 _ a2
  simp only [a0, a1, a2, a3]
  norm_num

end
end Verif
