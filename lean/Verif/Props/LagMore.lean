/- C89, continued: averages with memory and the filters. -/
import Verif.Props.Lag
import Verif.Props.ConvergeReal

namespace Verif
open Spec Finset
open Converge (Tends approaches)
set_option linter.unusedSectionVars false

section
variable {R : Type} [Field R] [LinearOrder R] [IsStrictOrderedRing R] [CMath R]

/-- shmma does not trail. -/
theorem shmma_lags_partial [LawfulTrunc R] [LawfulRound R] (o : Nat → R) (p : Nat) (hc : toInt (o 0) = .ok (p : Int)) (hp : 2 ≤ p)
    (hb : (p + 1) * p ≤ 2147483647) : Lags shmmaBatch o (p - 1) 0 :=
  lags (shmma_value_partial o p hc (by omega) hb) fun x j c b h => by
    rw [sharpMean_eq_line p hp x j _ _ (line_best h), Nat.cast_sub (by omega)]; push_cast; ring

/-- vwma with a constant volume trails like sma. -/
theorem vwma_trend (o : Nat → R) (p : Nat) (hc : toInt (o 0) = .ok (p : Int)) (hp : 1 ≤ p) (x : Nat → CV R) (v : R) (hv : v ≠ 0)
    (hx : ∀ i, (x i).volume = v) (a b : R) (ht : Trends (fun i => (x i).close) 0 a b) (N : Nat) :
    vwmaBatch o (pre x N) = .ok (.okay, pre (fun j => a + b * (((j + (p - 1) : Nat) : R) - ((p : R) - 1) / 2)) (N - (p - 1))) := by
  have hp' : (p : R) ≠ 0 := by exact_mod_cast (by omega : p ≠ 0)
  rw [vwma_value o p hc hp x N]
  congr 3
  funext j
  have e1 : winSum p (fun i => (x i).volume) j = p * v := by simp only [winSum, hx, sum_const, card_range, nsmul_eq_mul]
  have e2 : winSum p (fun i => (x i).close * (x i).volume) j = p * v * (a + b * (((j + (p - 1) : Nat) : R) - ((p : R) - 1) / 2)) := by
    have w := winMean_line hp (x := fun i => (x i).close) (j := j) (c := a + b * j) (b := b) fun k => by
      have e : (x (j + k)).close = a + b * ((j + k : Nat) : R) := ht (j + k) (by omega)
      show (x (j + k)).close = _
      rw [e]; push_cast; ring
    simp only [winMean, winSum, div_eq_iff hp'] at w
    simp only [winSum, hx]
    rw [← sum_mul, w, Nat.cast_add, Nat.cast_sub hp]; push_cast; ring
  simp only [e1, e2]
  have : (p : R) * v ≠ 0 := mul_ne_zero hp' hv
  split
  · rename_i h
    exact ((mul_eq_zero.1 h).resolve_left this).symm
  · field_simp

/-- dpo is the slope times a number of bars that depends on the period alone. -/
theorem dpo_trend_partial (o : Nat → R) (p : Nat) (hc : toInt (o 0) = .ok (p : Int)) (hp : 3 ≤ p) (x : Nat → R) (m : Nat) (a b : R) (hx : Trends x m a b) :
    Approaches dpoBatch o (p - 1) x id (b * (((p : R) - 1) / 2 - ((p / 2 : Nat) : R) - 1)) :=
  approaches 0 (fun N _ => dpo_value_partial o p hc hp x N) (.of_rests ⟨m, fun j hj => by
    show x (j + (p - 1) - (p / 2 + 1)) - winMean p x j = _
    rw [winMean_line (by omega) (c := a + b * j) (b := b) fun k => by rw [hx _ (by omega)]; push_cast; ring, hx _ (by omega),
      Nat.cast_sub (by omega), Nat.cast_add, Nat.cast_sub (by omega)]
    push_cast; ring⟩)

variable [Archimedean R]

/-- Like `lagsEnd`, for an input that lies on the line from some bar on. -/
theorem lagsEnd' {batch : (Nat → R) → List R → M (Ret × List R)} {o : Nat → R} {s : Nat} {y : (Nat → R) → Nat → R} {L : R} (hc : Computes batch o s y)
    (h : ∀ x a b, Rests (fun j => x j - b * (j : R)) a → Tends (fun j => y x j - b * (j : R)) (a + b * ((s : R) - L))) : LagsInTheEnd batch o s L := by
  intro x m a b hx ε hε
  obtain ⟨n0, h⟩ := h x a b ⟨m, fun i hi => by show x i - b * (i : R) = a; rw [hx i hi]; ring⟩ ε hε
  refine ⟨n0, fun N => ⟨_, hc x N, by simp [pre], fun j v hj hv => ?_⟩⟩
  have := h j hj
  rw [pre_get? hv]
  rwa [show y x j - (a + b * (((j + s : Nat) : R) - L)) = y x j - b * (j : R) - (a + b * ((s : R) - L)) by push_cast; ring]

/-- ahma trails like sma. -/
theorem ahma_lags (o : Nat → R) (p : Nat) (hc : toInt (o 0) = .ok (p : Int)) (hp : 1 ≤ p) : LagsInTheEnd ahmaBatch o 0 (((p : R) - 1) / 2) := by
  intro x m a b hx ε hε
  have hp' : (p : R) ≠ 0 := by exact_mod_cast (by omega : p ≠ 0)
  obtain ⟨y, hy⟩ := ahrens_exists p hp x
  obtain ⟨y', hy'⟩ : ∃ y' : Nat → R, y' = fun n => y n - b * ((n : R) - ((p : R) - 1) / 2) := ⟨_, rfl⟩
  obtain ⟨x', hx'⟩ : ∃ x' : Nat → R, x' = fun n => if n < p then y' n else x n - b * (n : R) := ⟨_, rfl⟩
  have hA : IsAhrens p x' y' := by
    refine ⟨fun n hn => by rw [hx']; simp only [hn, if_true], fun n hn => ?_⟩
    have e := hy.2 n hn
    rw [hx', hy']
    simp only [show ¬ n < p by omega, if_false]
    rw [e, Nat.cast_sub (show 1 ≤ n by omega), Nat.cast_sub hn]
    field_simp
    push_cast
    ring
  obtain ⟨n0, h⟩ := ahma_follows o p hc hp x' a ⟨m + p, fun i hi => by rw [hx']; simp only [show ¬ i < p by omega, if_false]; rw [hx i (by omega)]; ring⟩ ε hε
  refine ⟨n0, fun N => ⟨_, ahma_value o p hc hp x y hy N, by simp [pre], fun j v hj hv => ?_⟩⟩
  rw [pre_get? hv]
  obtain ⟨ys, e, -, h⟩ := h (n0 + j + 1) (by omega)
  rw [ahma_value o p hc hp x' y' hA] at e
  cases e
  have := h j (y' j) hj (by simp [pre])
  rw [hy'] at this
  simp only [id] at this
  rwa [show y j - (a + b * (((j + 0 : Nat) : R) - ((p : R) - 1) / 2)) = y j - b * ((j : R) - ((p : R) - 1) / 2) - 1 * a by push_cast; ring]

/-- lf with a damping `g` below one: `g / (1 - g)` bars in the first stage, half of three times `(1 + g) / (1 - g)` bars in the others.
Partial: not from one on (`lf_follows_violates`). -/
theorem lf_lags_partial (o : Nat → R) (h0 : 0 ≤ o 0) (h1 : o 0 < 1) : LagsInTheEnd lfBatch o 0 ((3 + 5 * o 0) / (2 * (1 - o 0))) :=
  lagsEnd (lf_value o h0) fun x a b h => by
    generalize o 0 = g at *
    have hg : |g| < 1 := abs_lt.2 ⟨by linarith, h1⟩
    have h1' : 1 - g ≠ 0 := by intro h; linarith
    have L0 : Tends (fun j => iir [1 - g] [g] x j - b * (j : R)) (a - b * (g / (1 - g))) := by
      have := Converge.first (f := fun j => iir [1 - g] [g] x j - b * (j : R)) (v := fun n => (1 - g) * (x (n + 1) - b * ((n + 1 : Nat) : R)) - g * b) hg
        (fun n => by show iir [1 - g] [g] x (n + 1) - _ = _; rw [iir1_next]; push_cast; ring) (((h.shift 1).mul_const (1 - g)).sub (.const (g * b)))
      rwa [show ((1 - g) * a - g * b) / (1 - g) = a - b * (g / (1 - g)) by field_simp] at this
    have L {y : Nat → R} {c : R} (hy : Tends (fun j => y j - b * (j : R)) c) :
        Tends (fun j => iir [-g, 1] [g] y j - b * (j : R)) (c - b * ((1 + g) / (1 - g))) := by
      have := Converge.first (f := fun j => iir [-g, 1] [g] y j - b * (j : R))
        (v := fun n => (-g * (y (n + 1) - b * ((n + 1 : Nat) : R)) + 1 * (y n - b * (n : R))) - (1 + g) * b) hg
        (fun n => by show iir [-g, 1] [g] y (n + 1) - _ = _; rw [iir2_next]; push_cast; ring)
        ((((hy.shift 1).mul_const (-g)).add (hy.mul_const 1)).sub (.const ((1 + g) * b)))
      rwa [show (-g * c + 1 * c - (1 + g) * b) / (1 - g) = c - b * ((1 + g) / (1 - g)) by field_simp; ring] at this
    have := (((L0.add ((L L0).mul_const 2)).add ((L (L L0)).mul_const 2)).add (L (L (L L0)))).mul_const (1 / 6)
    rw [show a + b * (((0 : Nat) : R) - (3 + 5 * g) / (2 * (1 - g))) = 1 / 6 * (a - b * (g / (1 - g)) + 2 * (a - b * (g / (1 - g)) - b * ((1 + g) / (1 - g))) +
      2 * (a - b * (g / (1 - g)) - b * ((1 + g) / (1 - g)) - b * ((1 + g) / (1 - g))) +
      (a - b * (g / (1 - g)) - b * ((1 + g) / (1 - g)) - b * ((1 + g) / (1 - g)) - b * ((1 + g) / (1 - g)))) by push_cast; field_simp; ring]
    exact this.congr 0 fun n _ => by ring

/-- A recursion with weights `b0` for the bar and `a1`, … for the outputs before, all divided by their sum. -/
theorem table_lag {S a1 a2 a3 a4 : Int} (K : Nat) (hS : 0 < S) (hc : Gain.half S a1 a2 a3 a4 K a1 a2 a3 a4 S = true) {b0 : R} (h0 : b0 ≠ 0)
    (hg : (S : R) - a1 - a2 - a3 - a4 = b0) {x y : Nat → R}
    (hy : ∀ n, (S : R) * y (n + 5) = b0 * x (n + 5) + a1 * y (n + 4) + a2 * y (n + 3) + a3 * y (n + 2) + a4 * y (n + 1)) {a b : R}
    (hx : Rests (fun j => x j - b * (j : R)) a) :
    Tends (fun j => y j - b * (j : R)) (a - b * (((a1 : R) + 2 * a2 + 3 * a3 + 4 * a4) / b0)) := by
  obtain ⟨L, hL⟩ : ∃ L, L = ((a1 : R) + 2 * a2 + 3 * a3 + 4 * a4) / b0 := ⟨_, rfl⟩
  have hL' : L * b0 = (a1 : R) + 2 * a2 + 3 * a3 + 4 * a4 := by rw [hL, div_mul_cancel₀ _ h0]
  have t := Converge.table K hS hc (b0 := b0) (b1 := 0) (b2 := 0) (b3 := 0) (g := 1) (by linear_combination hg)
    (x := fun j => x j - b * (j : R)) (y := fun j => y j - b * (j : R) + b * L)
    (fun n => by push_cast; linear_combination hy n - b * (n + 5) * hg + b * L * hg + b * hL') hx
  have := t.sub (.const (b * L))
  rw [one_mul] at this
  rw [← hL]
  exact this.congr 0 fun n _ => by ring

section Tables
attribute [local irreducible] Cutoff.row

theorem gf1_lags (o : Nat → R) (q : Nat) (h1 : 1 ≤ q) (h2 : q ≤ 20) (hc : toInt (o 0) = .ok ((2 * q : Nat) : Int)) :
    LagsInTheEnd gf1Batch o 0 ((coef gf1A1 q : R) / coef gf1B0 q) :=
  lagsEnd' (gf1_value o q h1 h2 hc) fun x a b hx => by
    have hr := rows (P := fun i => Cutoff.row i 4999 10000 5001 10000 1000000 (gf1A1.getD i 0) 0 0 0 (gf1B0.getD i 0) 0 0 0 8 = true) gf1_row q h1 h2
    have hs := gf1_sum (R := R) q h1 h2
    have hpos := rows (P := fun i => gf1B0.getD i 0 ≠ 0) (by decide) q h1 h2
    obtain ⟨hS, hh⟩ := Converge.row_half hr
    simp only [coef_cast] at hs ⊢
    have t := table_lag (R := R) 8 hS hh (b0 := (gf1B0.getD (q - 1) 0 : R)) (y := iir [(gf1B0.getD (q - 1) 0 : R) / 1000000] [(gf1A1.getD (q - 1) 0 : R) / 1000000] x)
      (by exact_mod_cast hpos) (by field_simp at hs; push_cast; linear_combination -hs) (fun n => by
      rw [iir_unfold]
      simp only [dot1, past_getD, show 0 + 1 ≤ n + 5 + 1 by omega, show 0 + 1 ≤ n + 5 by omega, if_true, Nat.add_sub_cancel, Nat.zero_add,
        show n + 5 - 1 = n + 4 by omega]
      push_cast
      ring) hx
    have hb0 : (gf1B0.getD (q - 1) 0 : R) ≠ 0 := by exact_mod_cast hpos
    push_cast at t ⊢
    rwa [show a + b * (0 - (gf1A1.getD (q - 1) 0 : R) / 1000000 / ((gf1B0.getD (q - 1) 0 : R) / 1000000)) =
      a - b * (((gf1A1.getD (q - 1) 0 : R) + 2 * 0 + 3 * 0 + 4 * 0) / (gf1B0.getD (q - 1) 0 : R)) by field_simp; ring]

theorem gf2_lags (o : Nat → R) (q : Nat) (h1 : 1 ≤ q) (h2 : q ≤ 20) (hc : toInt (o 0) = .ok ((2 * q : Nat) : Int)) :
    LagsInTheEnd gf2Batch o 0 (((coef gf2A1 q : R) + 2 * coef gf2A2 q) / coef gf2B0 q) :=
  lagsEnd' (gf2_value o q h1 h2 hc) fun x a b hx => by
    have hr := rows (P := fun i => Cutoff.row i 4999 10000 5001 10000 (gf2B0.getD i 0 + gf2A1.getD i 0 + gf2A2.getD i 0)
      (gf2A1.getD i 0) (gf2A2.getD i 0) 0 0 (gf2B0.getD i 0) 0 0 0 20 = true) gf2_row q h1 h2
    have hpos := rows (P := fun i => gf2B0.getD i 0 ≠ 0) (by decide) q h1 h2
    have hb0 : (gf2B0.getD (q - 1) 0 : R) ≠ 0 := by exact_mod_cast hpos
    obtain ⟨hS, hh⟩ := Converge.row_half hr
    have hS' : ((gf2B0.getD (q - 1) 0 + gf2A1.getD (q - 1) 0 + gf2A2.getD (q - 1) 0 : Int) : R) ≠ 0 := by exact_mod_cast hS.ne'
    have t := table_lag (R := R) 20 hS hh (b0 := (gf2B0.getD (q - 1) 0 : R)) (y := iir [coef gf2B0 q / (coef gf2B0 q + coef gf2A1 q + coef gf2A2 q)]
      [coef gf2A1 q / (coef gf2B0 q + coef gf2A1 q + coef gf2A2 q), coef gf2A2 q / (coef gf2B0 q + coef gf2A1 q + coef gf2A2 q)] x)
      hb0 (by push_cast; ring) (fun n => by
      rw [iir_unfold]
      simp only [dot1, dot2, past_getD, coef_cast, show 0 + 1 ≤ n + 5 + 1 by omega, show 0 + 1 ≤ n + 5 by omega, show 1 + 1 ≤ n + 5 by omega, if_true,
        show n + 5 + 1 - (0 + 1) = n + 5 by omega, show n + 5 - (0 + 1) = n + 4 by omega, show n + 5 - (1 + 1) = n + 3 by omega]
      push_cast at hS' ⊢
      field_simp
      ring) hx
    have e : ((coef gf2A1 q : R) + 2 * coef gf2A2 q) / coef gf2B0 q = ((gf2A1.getD (q - 1) 0 : R) + 2 * (gf2A2.getD (q - 1) 0 : R)) / (gf2B0.getD (q - 1) 0 : R) := by
      simp only [coef_cast]; push_cast; field_simp
    push_cast at t ⊢
    rw [e, show a + b * (0 - ((gf2A1.getD (q - 1) 0 : R) + 2 * (gf2A2.getD (q - 1) 0 : R)) / (gf2B0.getD (q - 1) 0 : R)) =
      a - b * (((gf2A1.getD (q - 1) 0 : R) + 2 * (gf2A2.getD (q - 1) 0 : R) + 3 * 0 + 4 * 0) / (gf2B0.getD (q - 1) 0 : R)) by ring]
    exact t

/-- gf3 trails by six bars whatever its period (see `gf3_ignores_period`). -/
theorem gf3_lags (o : Nat → R) (q : Nat) (h1 : 1 ≤ q) (h2 : q ≤ 20) (hc : toInt (o 0) = .ok ((2 * q : Nat) : Int)) : LagsInTheEnd gf3Batch o 0 6 :=
  lagsEnd' (gf3_ignores_period o q h1 h2 hc) fun x a b hx => by
    obtain ⟨hS, hh⟩ := Converge.row_half (gf3_row 0)
    have t := table_lag (R := R) 6 hS hh (b0 := 1) (y := iir [1/4] [1/4, 1/4, 1/4] x) one_ne_zero (by push_cast; ring) (fun n => by
      rw [iir_unfold]
      simp only [dot1, dot3, past_getD, show 0 + 1 ≤ n + 5 + 1 by omega, show 0 + 1 ≤ n + 5 by omega, show 1 + 1 ≤ n + 5 by omega, show 2 + 1 ≤ n + 5 by omega,
        if_true, show n + 5 + 1 - (0 + 1) = n + 5 by omega, show n + 5 - (0 + 1) = n + 4 by omega, show n + 5 - (1 + 1) = n + 3 by omega,
        show n + 5 - (2 + 1) = n + 2 by omega]
      push_cast
      ring) hx
    rw [show a + b * (((0 : Nat) : R) - 6) = a - b * ((((1 : Int) : R) + 2 * ((1 : Int) : R) + 3 * ((1 : Int) : R) + 4 * ((0 : Int) : R)) / 1) by push_cast; ring]
    exact t
end Tables

/-- macd: the line and the signal approach the slope times the difference of the lags, the histogram 0. -/
theorem macd_trend (o : Nat → R) (p q r : Nat) (hc : toInt (o 0) = .ok (p : Int)) (hc1 : toInt (o 1) = .ok (q : Int)) (hc2 : toInt (o 2) = .ok (r : Int))
    (hp : 1 ≤ p) (hq : 2 ≤ q) (hpq : p ≤ q) (hr : 1 ≤ r) (x : Nat → R) (m : Nat) (a b : R) (hx : Trends x m a b) :
    Approaches macdBatch o (q - 1) x (·.macd) (b * (1 / (macdCoef p q).2 - 1 / (macdCoef p q).1)) ∧
    Approaches macdBatch o (q - 1) x (·.signal) (b * (1 / (macdCoef p q).2 - 1 / (macdCoef p q).1)) ∧ Approaches macdBatch o (q - 1) x (·.hist) 0 := by
  obtain ⟨a1, a2, a3, a4⟩ := macdCoef_range (R := R) p q hp (by omega)
  have h : Tends (fun j => x j - b * (j : R)) a := .of_rests ⟨m, fun i hi => by show x i - b * (i : R) = a; rw [hx i hi]; ring⟩
  have l := (ema_detrend a1 a2 h).sub (ema_detrend a3 a4 h)
  rw [show a - b * (1 / (macdCoef p q : R × R).1 - 1) - (a - b * (1 / (macdCoef p q : R × R).2 - 1)) = b * (1 / (macdCoef p q : R × R).2 - 1 / (macdCoef p q : R × R).1) by ring] at l
  have l := l.congr 0 (g := fun i => Spec.ema (macdCoef p q).1 x i - Spec.ema (macdCoef p q).2 x i) fun n _ => by ring
  have s := Converge.ema (Converge.emaCoef_pos r) (Converge.emaCoef_lt r hr) (l.shift (q - 1))
  have h := (l.shift (q - 1)).sub s
  rw [sub_self] at h
  have hv := fun N => macd_value o p q r hc hc1 hc2 hp hq hpq hr x N
  exact ⟨approaches 0 (fun N _ => hv N) (l.shift (q - 1)), approaches 0 (fun N _ => hv N) s, approaches 0 (fun N _ => hv N) h⟩
end

/-! ### Filters over the real numbers -/

/-- rema trails like ema, whatever the strength of its regularisation. -/
theorem rema_lags (o : Nat → ℝ) (h1 : 1 ≤ o 0) (h2 : 0 ≤ o 1) : LagsInTheEnd remaBatch o 0 ((o 0 - 1) / 2) := by
  obtain ⟨y, hc, hy⟩ := rema_value o h1 h2
  refine lagsEnd hc fun x c b hx => ?_
  obtain ⟨a, ha⟩ : ∃ a, a = 2 / (1 + o 0) := ⟨_, rfl⟩
  have a0 : 0 < a := by rw [ha]; positivity
  have a1 : a ≤ 1 := by rw [ha, div_le_one (by linarith)]; linarith
  have hD : (o 0 - 1) / 2 = 1 / a - 1 := by rw [ha, one_div_div]; ring
  have hl : 0 < 1 + o 1 := by linarith
  obtain ⟨-, -, hr⟩ := hy x
  rw [← ha] at hr
  have := Converge.second (z := fun j => y x j - b * (j : ℝ)) (p := (1 - a + 2 * o 1) / (1 + o 1)) (q := o 1 / (1 + o 1))
    (v := fun n => a / (1 + o 1) * (x (n + 2) - b * ((n + 2 : Nat) : ℝ)) - (1 - a) * b / (1 + o 1))
    (by rw [div_lt_one hl]; linarith)
    (by rw [abs_div, abs_of_pos hl, abs_of_nonneg (by linarith), div_lt_iff₀ hl, add_mul, div_mul_cancel₀ _ hl.ne']; linarith)
    (fun n => by show y x (n + 2) - _ = _; rw [hr n]; push_cast; field_simp; ring) (((hx.shift 2).mul_const _).sub (.const _))
  rwa [show 1 - (1 - a + 2 * o 1) / (1 + o 1) + o 1 / (1 + o 1) = a / (1 + o 1) by field_simp; ring,
    show (a / (1 + o 1) * c - (1 - a) * b / (1 + o 1)) / (a / (1 + o 1)) = c + b * (((0 : Nat) : ℝ) - (1 / a - 1)) by push_cast; field_simp; ring, ← hD] at this

/-- The super smoother adds a constant lag. -/
theorem ss_detrend {x : Nat → ℝ} {c b : ℝ} (hx : Tends (fun j => x j - b * (j : ℝ)) c) :
    Tends (fun j => iir [ssC1 / 2, ssC1 / 2] [ssC2, ssC3] x j - b * (j : ℝ)) (c - b * ((ssC2 + 2 * ssC3) / ssC1 + 1 / 2)) := by
  obtain ⟨k1, k2⟩ := ss_coefs
  rw [abs_le] at k1 k2
  have hc1 : (ssC1 : ℝ) = 1 - ssC2 - ssC3 := by unfold ssC1; norm_num
  have e : (ssC1 : ℝ) ≠ 0 := by intro h; linarith [k1.2, k2.2]
  have := Converge.second (z := fun j => iir [ssC1 / 2, ssC1 / 2] [ssC2, ssC3] x j - b * (j : ℝ)) (p := ssC2) (q := -ssC3) (by linarith [k2.1])
    (abs_lt.2 ⟨by linarith [k1.1, k2.2], by linarith [k1.2, k2.2]⟩)
    (v := fun n => ssC1 / 2 * (x (n + 2) - b * ((n + 2 : Nat) : ℝ)) + ssC1 / 2 * (x (n + 1) - b * ((n + 1 : Nat) : ℝ)) - b * (ssC2 + 2 * ssC3 + ssC1 / 2))
    (fun n => by
      show iir _ _ x (n + 2) - _ = _
      rw [iir2_rec]; push_cast; linear_combination b * ((n : ℝ) + 2) * hc1)
    ((((hx.shift 2).mul_const (ssC1 / 2)).add ((hx.shift 1).mul_const (ssC1 / 2))).sub (.const _))
  rwa [show 1 - ssC2 + -ssC3 = (ssC1 : ℝ) by rw [hc1]; ring,
    show (ssC1 / 2 * c + ssC1 / 2 * c - b * (ssC2 + 2 * ssC3 + ssC1 / 2)) / ssC1 = c - b * ((ssC2 + 2 * ssC3) / ssC1 + 1 / 2) by field_simp; ring] at this

theorem ssmooth_lags (o : Nat → ℝ) : LagsInTheEnd ssmoothBatch o 0 ((ssC2 + 2 * ssC3) / ssC1 + 1 / 2) :=
  lagsEnd (ssmooth_value o) fun x a b h => by
    rw [show a + b * (((0 : Nat) : ℝ) - ((ssC2 + 2 * ssC3) / ssC1 + 1 / 2)) = a - b * ((ssC2 + 2 * ssC3) / ssC1 + 1 / 2) by push_cast; ring]
    exact ss_detrend h

/-- roof takes out the trend: it approaches 0 on every straight line. -/
theorem roof_trend (o : Nat → ℝ) (x : Nat → ℝ) (m : Nat) (a b : ℝ) (hx : Trends x m a b) : Approaches roofBatch o 0 x id 0 :=
  approaches 0 (fun N _ => roof_value o x N) (by
    refine ss_tends ?_
    obtain ⟨a0, a2⟩ := roof_alpha
    have hr : |1 - (roofAlpha : ℝ)| < 1 := abs_lt.2 ⟨by linarith, by linarith⟩
    obtain ⟨r, hr'⟩ : ∃ r, r = 1 - (roofAlpha : ℝ) := ⟨_, rfl⟩
    obtain ⟨k, hk⟩ : ∃ k, k = (1 - (roofAlpha : ℝ) / 2) ^ 2 := ⟨_, rfl⟩
    rw [← hr'] at hr ⊢
    rw [← hk]
    have hr2 := abs_lt.1 hr
    have := Converge.second (z := iir [k, -2 * k, k] [2 * r, -r ^ 2] x) (p := 2 * r) (q := r ^ 2) (V := 0) (by nlinarith) (abs_lt.2 ⟨by nlinarith, by nlinarith⟩)
      (v := fun n => k * x (n + 2) + -2 * k * x (n + 1) + k * x n)
      (fun n => by rw [iir3_rec]; ring) (.of_rests ⟨m, fun n hn => by
        show k * x (n + 2) + -2 * k * x (n + 1) + k * x n = 0
        rw [hx _ hn, hx (n + 1) (by omega), hx (n + 2) (by omega)]; push_cast; ring⟩)
    rwa [zero_div] at this)

/-! ### Concrete cases -/
example : LagsInTheEnd ahmaBatch (opts [5] : Nat → ℚ) 0 2 := by
  have := ahma_lags (opts [5] : Nat → ℚ) 5 (by decide +kernel) (by omega)
  norm_num at this; exact this
example : LagsInTheEnd lfBatch (opts [1/5] : Nat → ℚ) 0 (5/2) := by
  have := lf_lags_partial (opts [1/5] : Nat → ℚ) (by decide +kernel) (by decide +kernel)
  rwa [show ((3 + 5 * (opts [1/5] : Nat → ℚ) 0) / (2 * (1 - (opts [1/5] : Nat → ℚ) 0))) = 5/2 by decide +kernel] at this
example : LagsInTheEnd gf3Batch (opts [10] : Nat → ℚ) 0 6 := gf3_lags (opts [10] : Nat → ℚ) 5 (by omega) (by omega) (by decide +kernel)
example : LagsInTheEnd gf1Batch (opts [10] : Nat → ℚ) 0 (coef gf1A1 5 / coef gf1B0 5) := gf1_lags (opts [10] : Nat → ℚ) 5 (by omega) (by omega) (by decide +kernel)
example : LagsInTheEnd remaBatch (ropts [5, 1 / 2]) 0 2 := by
  have := rema_lags (ropts [5, 1 / 2]) (by norm_num [ropts]) (by norm_num [ropts])
  rwa [show (ropts [5, 1 / 2] 0 - 1) / 2 = 2 by norm_num [ropts]] at this
example : shmmaBatch (opts [3] : Nat → ℚ) [9, 10, 12, 14, 16] = .ok (.okay, [71/6, 14, 16]) := by decide +kernel
example : dpoBatch (opts [4] : Nat → ℚ) [0, 2, 4, 6, 8] = .ok (.okay, [-3, -3]) := by decide +kernel

end Verif
