/-
Steady response of a recursive filter of order at most four to a cycle, and bounds for `cos (π/q)`.
-/
import Verif.Proof.Decay
import Verif.Spec.Cutoff
import Mathlib.Analysis.SpecialFunctions.Trigonometric.Inverse
import Mathlib.Analysis.SpecialFunctions.Complex.Arg

namespace Verif.Cutoff
open Spec Real
set_option linter.unusedSimpArgs false
set_option linter.unusedVariables false

/-! ### The steady cycle -/

/-- `|d₀ + d₁·z + … + d₄·z⁴|²` for `z = e^{-iw}` as a polynomial in `t = 1 - cos w`. -/
def sq (d0 d1 d2 d3 d4 : ℝ) (t : ℝ) : ℝ :=
  (d0 ^ 2 + d1 ^ 2 + d2 ^ 2 + d3 ^ 2 + d4 ^ 2) + 2 * (d0 * d1 + d1 * d2 + d2 * d3 + d3 * d4) * (1 - t)
    + 2 * (d0 * d2 + d1 * d3 + d2 * d4) * (1 - 4 * t + 2 * t ^ 2) + 2 * (d0 * d3 + d1 * d4) * (1 - 9 * t + 12 * t ^ 2 - 4 * t ^ 3)
    + 2 * (d0 * d4) * (1 - 16 * t + 40 * t ^ 2 - 32 * t ^ 3 + 8 * t ^ 4)

theorem cos_four (w : ℝ) : cos (4 * w) = 8 * cos w ^ 4 - 8 * cos w ^ 2 + 1 := by
  rw [show 4 * w = 2 * (2 * w) by ring, cos_two_mul, cos_two_mul]; ring
theorem sin_four (w : ℝ) : sin (4 * w) = sin w * (8 * cos w ^ 3 - 4 * cos w) := by
  rw [show 4 * w = 2 * (2 * w) by ring, sin_two_mul, cos_two_mul, sin_two_mul]; ring
theorem sin_three (w : ℝ) : sin (3 * w) = sin w * (4 * cos w ^ 2 - 1) := by
  rw [show 3 * w = 2 * w + w by ring, sin_add, cos_two_mul, sin_two_mul]; ring

theorem sq_eq (d0 d1 d2 d3 d4 w : ℝ) :
    (d0 + d1 * cos w + d2 * cos (2 * w) + d3 * cos (3 * w) + d4 * cos (4 * w)) ^ 2
      + (d1 * sin w + d2 * sin (2 * w) + d3 * sin (3 * w) + d4 * sin (4 * w)) ^ 2 = sq d0 d1 d2 d3 d4 (1 - cos w) := by
  rw [cos_four, sin_four, cos_three_mul, sin_three, cos_two_mul, sin_two_mul]
  have h : (d1 * sin w + d2 * (2 * sin w * cos w) + d3 * (sin w * (4 * cos w ^ 2 - 1)) + d4 * (sin w * (8 * cos w ^ 3 - 4 * cos w))) ^ 2
      = (1 - cos w ^ 2) * (d1 + d2 * (2 * cos w) + d3 * (4 * cos w ^ 2 - 1) + d4 * (8 * cos w ^ 3 - 4 * cos w)) ^ 2 := by
    rw [← sin_sq]; ring
  rw [h]
  unfold sq
  ring

/-- The outputs of a recursion whose free part dies out approach a cycle whose power is the quotient of the two squares. -/
theorem steady' {S a1 a2 a3 a4 : ℝ} (b0 b1 b2 b3 : ℝ)
    (hdec : ∀ z : Nat → ℝ, (∀ n, S * z (n + 4) = a1 * z (n + 3) + a2 * z (n + 2) + a3 * z (n + 1) + a4 * z n) →
      ∀ ε, 0 < ε → ∃ n0, ∀ n, n0 ≤ n → |z n| ≤ ε) (P : Nat)
    (hD : 0 < sq S (-a1) (-a2) (-a3) (-a4) (1 - cos (2 * π / P))) :
    ∃ a ψ : ℝ, a ^ 2 * sq S (-a1) (-a2) (-a3) (-a4) (1 - cos (2 * π / P)) = sq b0 b1 b2 b3 0 (1 - cos (2 * π / P)) ∧
      ∀ (φ : ℝ) (y : Nat → ℝ), (∀ n, S * y (n + 5) = b0 * wave P φ (n + 5) + b1 * wave P φ (n + 4) + b2 * wave P φ (n + 3) + b3 * wave P φ (n + 2)
        + a1 * y (n + 4) + a2 * y (n + 3) + a3 * y (n + 2) + a4 * y (n + 1)) →
      ∀ ε, 0 < ε → ∃ n0, ∀ n, n0 ≤ n → |y n - a * wave P (φ + ψ) n| ≤ ε := by
  set w := 2 * π / P with hw
  obtain ⟨Dr, hDr⟩ : ∃ v, v = S - (a1 * cos w + a2 * cos (2 * w) + a3 * cos (3 * w) + a4 * cos (4 * w)) := ⟨_, rfl⟩
  obtain ⟨Di, hDi⟩ : ∃ v, v = a1 * sin w + a2 * sin (2 * w) + a3 * sin (3 * w) + a4 * sin (4 * w) := ⟨_, rfl⟩
  obtain ⟨Br, hBr⟩ : ∃ v, v = b0 + b1 * cos w + b2 * cos (2 * w) + b3 * cos (3 * w) := ⟨_, rfl⟩
  obtain ⟨Bi, hBi⟩ : ∃ v, v = -(b1 * sin w + b2 * sin (2 * w) + b3 * sin (3 * w)) := ⟨_, rfl⟩
  have eD : Dr ^ 2 + Di ^ 2 = sq S (-a1) (-a2) (-a3) (-a4) (1 - cos w) := by rw [← sq_eq, hDr, hDi]; ring
  have eB : Br ^ 2 + Bi ^ 2 = sq b0 b1 b2 b3 0 (1 - cos w) := by rw [← sq_eq, hBr, hBi]; ring
  rw [← eD] at hD
  rw [← eD, ← eB]
  have hne := hD.ne'
  obtain ⟨Hr, hHr⟩ : ∃ v, v = (Br * Dr + Bi * Di) / (Dr ^ 2 + Di ^ 2) := ⟨_, rfl⟩
  obtain ⟨Hi, hHi⟩ : ∃ v, v = (Bi * Dr - Br * Di) / (Dr ^ 2 + Di ^ 2) := ⟨_, rfl⟩
  have q1 : Hr * Dr - Hi * Di = Br := by rw [hHr, hHi]; field_simp; ring
  have q2 : Hr * Di + Hi * Dr = Bi := by rw [hHr, hHi]; field_simp; ring
  have r1 := Complex.norm_mul_cos_arg ⟨Hr, Hi⟩
  have r2 := Complex.norm_mul_sin_arg ⟨Hr, Hi⟩
  have r3 : ‖(⟨Hr, Hi⟩ : ℂ)‖ ^ 2 = Hr ^ 2 + Hi ^ 2 := by rw [Complex.sq_norm, Complex.normSq_mk]; ring
  refine ⟨‖(⟨Hr, Hi⟩ : ℂ)‖, Complex.arg ⟨Hr, Hi⟩, ?_, fun φ y hy => ?_⟩
  · rw [r3, ← q1, ← q2]; ring
  · generalize ‖(⟨Hr, Hi⟩ : ℂ)‖ = a at *
    generalize Complex.arg ⟨Hr, Hi⟩ = ψ at *
    simp only at r1 r2
    have hst : ∀ n, a * wave P (φ + ψ) n = Hr * cos (2 * π * n / P + φ) - Hi * sin (2 * π * n / P + φ) := by
      intro n
      rw [wave, ← add_assoc, cos_add (2 * π * n / P + φ) ψ, ← r1, ← r2]; ring
    have shift : ∀ (n k : Nat), 2 * π * n / P + φ = 2 * π * (n + k : Nat) / P + φ - k * w := by
      intro n k; rw [hw]; push_cast; ring
    intro ε hε
    have hrec : ∀ n, S * (y (n + 4 + 1) - a * wave P (φ + ψ) (n + 4 + 1)) = a1 * (y (n + 3 + 1) - a * wave P (φ + ψ) (n + 3 + 1))
        + a2 * (y (n + 2 + 1) - a * wave P (φ + ψ) (n + 2 + 1)) + a3 * (y (n + 1 + 1) - a * wave P (φ + ψ) (n + 1 + 1))
        + a4 * (y (n + 1) - a * wave P (φ + ψ) (n + 1)) := by
      intro n
      simp only [show n + 4 + 1 = n + 5 by omega, show n + 3 + 1 = n + 4 by omega, show n + 2 + 1 = n + 3 by omega, show n + 1 + 1 = n + 2 by omega]
      have hn := hy n
      rw [hst, hst, hst, hst, hst]
      simp only [wave] at hn
      have s1 := shift (n + 4) 1
      have s2 := shift (n + 3) 2
      have s3 := shift (n + 2) 3
      have s4 := shift (n + 1) 4
      simp only [show n + 4 + 1 = n + 5 by omega, show n + 3 + 2 = n + 5 by omega, show n + 2 + 3 = n + 5 by omega, show n + 1 + 4 = n + 5 by omega] at s1 s2 s3 s4
      rw [s1, s2, s3] at hn
      rw [s1, s2, s3, s4]
      generalize 2 * π * (n + 5 : Nat) / P + φ = θ at *
      simp only [cos_sub, sin_sub, Nat.cast_one, one_mul, Nat.cast_ofNat] at *
      generalize cos θ = C at *
      generalize sin θ = s at *
      rw [← sub_eq_zero] at q1 q2
      rw [hDr, hDi, hBr] at q1
      rw [hDr, hDi, hBi] at q2
      linear_combination hn - C * q1 + s * q2
    obtain ⟨n0, h0⟩ := hdec (fun n => y (n + 1) - a * wave P (φ + ψ) (n + 1)) hrec ε hε
    refine ⟨n0 + 1, fun n hn => ?_⟩
    have := h0 (n - 1) (by omega)
    rwa [show n - 1 + 1 = n by omega] at this

theorem steady {S a1 a2 a3 a4 : Int} (b0 b1 b2 b3 : ℝ) (K : Nat) (hS : 0 < S) (hc : Gain.half S a1 a2 a3 a4 K a1 a2 a3 a4 S = true) (P : Nat)
    (hD : 0 < sq S (-a1) (-a2) (-a3) (-a4) (1 - cos (2 * π / P))) :
    ∃ a ψ : ℝ, a ^ 2 * sq S (-a1) (-a2) (-a3) (-a4) (1 - cos (2 * π / P)) = sq b0 b1 b2 b3 0 (1 - cos (2 * π / P)) ∧
      ∀ (φ : ℝ) (y : Nat → ℝ), (∀ n, (S : ℝ) * y (n + 5) = b0 * wave P φ (n + 5) + b1 * wave P φ (n + 4) + b2 * wave P φ (n + 3) + b3 * wave P φ (n + 2)
        + a1 * y (n + 4) + a2 * y (n + 3) + a3 * y (n + 2) + a4 * y (n + 1)) →
      ∀ ε, 0 < ε → ∃ n0, ∀ n, n0 ≤ n → |y n - a * wave P (φ + ψ) n| ≤ ε :=
  steady' b0 b1 b2 b3 (fun _ hz e he => Gain.decays K hS hc hz e he) P hD

/-- A free recursion of order two whose poles are `a·(c ± i·√(1-c²))` dies out. -/
theorem pair_decays (a c : ℝ) (h0 : 0 < a) (h1 : a < 1) (hc : c ^ 2 < 1) (z : Nat → ℝ) (hz : ∀ n, z (n + 2) = 2 * a * c * z (n + 1) - a ^ 2 * z n)
    (ε : ℝ) (hε : 0 < ε) : ∃ n0, ∀ n, n0 ≤ n → |z n| ≤ ε := by
  have hQ : ∀ n, z (n + 1) ^ 2 - 2 * a * c * z (n + 1) * z n + a ^ 2 * z n ^ 2 = (a ^ 2) ^ n * (z 1 ^ 2 - 2 * a * c * z 1 * z 0 + a ^ 2 * z 0 ^ 2) := by
    intro n
    induction n with
    | zero => simp
    | succ n ih =>
      have e := hz n
      rw [show n + 1 + 1 = n + 2 by omega, e, pow_succ (a ^ 2) n]
      linear_combination a ^ 2 * ih
  have hQ0 : 0 ≤ z 1 ^ 2 - 2 * a * c * z 1 * z 0 + a ^ 2 * z 0 ^ 2 := by nlinarith [sq_nonneg (z 1 - a * c * z 0), mul_nonneg (sq_nonneg (a * z 0)) (sub_nonneg.2 hc.le)]
  generalize z 1 ^ 2 - 2 * a * c * z 1 * z 0 + a ^ 2 * z 0 ^ 2 = Q at *
  have hk : 0 < a ^ 2 * (1 - c ^ 2) := mul_pos (by positivity) (by linarith)
  have ha2 : a ^ 2 < 1 := by nlinarith
  obtain ⟨n0, hn0⟩ := exists_pow_lt_of_lt_one (show 0 < ε ^ 2 * (a ^ 2 * (1 - c ^ 2)) / (Q + 1) by positivity) ha2
  refine ⟨n0, fun n hn => ?_⟩
  have e1 : (a ^ 2) ^ n ≤ (a ^ 2) ^ n0 := pow_le_pow_of_le_one (by positivity) ha2.le hn
  have e2 : z n ^ 2 * (a ^ 2 * (1 - c ^ 2)) ≤ (a ^ 2) ^ n * Q := by
    rw [← hQ n]; nlinarith [sq_nonneg (z (n + 1) - a * c * z n)]
  rw [lt_div_iff₀ (by linarith)] at hn0
  have e3 : (a ^ 2) ^ n * Q ≤ (a ^ 2) ^ n0 * (Q + 1) := mul_le_mul e1 (by linarith) hQ0 (by positivity)
  have e4 : z n ^ 2 ≤ ε ^ 2 := le_of_mul_le_mul_right (by linarith) hk
  exact abs_le_of_sq_le_sq e4 hε.le

/-! ### The amplitude is determined -/

theorem amplitude_le {batch : (Nat → ℝ) → List ℝ → M (Ret × List ℝ)} {o : Nat → ℝ} {s P : Nat} (hP : 1 ≤ P) {a ψ a' ψ' : ℝ}
    (h : Passes batch o s P a ψ) (h' : Passes batch o s P a' ψ') : a ^ 2 ≤ a' ^ 2 := by
  have hPr : (P : ℝ) ≠ 0 := by exact_mod_cast (by omega : P ≠ 0)
  have key : ∀ ε, 0 < ε → |a - a' * cos (ψ' - ψ)| ≤ 2 * ε := by
    intro ε hε
    obtain ⟨n0, h0⟩ := h (-ψ) ε hε
    obtain ⟨n1, h1⟩ := h' (-ψ) ε hε
    have hj : (n0 + n1 + s) ≤ (n0 + n1 + s) * P := Nat.le_mul_of_pos_right _ hP
    obtain ⟨ys, e, hl, hv⟩ := h0 ((n0 + n1 + s) * P + s + 1) (by omega)
    obtain ⟨ys', e', -, hv'⟩ := h1 ((n0 + n1 + s) * P + s + 1) (by omega)
    rw [e] at e'
    cases e'
    have hlt : (n0 + n1 + s) * P - s < ys.length := by omega
    have g := hv ((n0 + n1 + s) * P - s) _ (by omega) (List.getElem?_eq_getElem hlt)
    have g' := hv' ((n0 + n1 + s) * P - s) _ (by omega) (List.getElem?_eq_getElem hlt)
    rw [show (n0 + n1 + s) * P - s + s = (n0 + n1 + s) * P by omega] at g g'
    have per : ∀ t, wave P t ((n0 + n1 + s) * P) = cos t := by
      intro t
      unfold wave
      rw [show 2 * π * ((n0 + n1 + s) * P : Nat) / P + t = t + (n0 + n1 + s : Nat) * (2 * π) by push_cast; field_simp; ring]
      exact cos_add_nat_mul_two_pi t _
    rw [per, neg_add_cancel, cos_zero, mul_one] at g
    rw [per, neg_add_eq_sub] at g'
    have := abs_sub_le a (ys[(n0 + n1 + s) * P - s]) (a' * cos (ψ' - ψ))
    rw [abs_sub_comm a (ys[(n0 + n1 + s) * P - s])] at this
    linarith
  have : a = a' * cos (ψ' - ψ) := by
    by_contra hne
    have hp := abs_pos.2 (sub_ne_zero.2 hne)
    have := key (|a - a' * cos (ψ' - ψ)| / 4) (by linarith)
    linarith
  rw [this, mul_pow]
  exact mul_le_of_le_one_right (by positivity) (cos_sq_le_one _)

/-! ### Bounds for `cos (π/q)` -/

/-- `W^(k-1)·sin(kθ)/sin θ` for `cos θ = X/W`. -/
def cheb (X W : Int) : Nat → Int × Int
  | 0 => (0, 1)
  | k + 1 => ((cheb X W k).2, 2 * X * (cheb X W k).2 - W ^ 2 * (cheb X W k).1)

theorem cheb_sin (X W : Int) (hW : (W : ℝ) ≠ 0) (θ : ℝ) (h : cos θ = X / W) (k : Nat) :
    (cheb X W k).1 * sin θ * W = W ^ k * sin (k * θ) ∧ (cheb X W k).2 * sin θ = W ^ k * sin ((k + 1 : Nat) * θ) := by
  have hX : (X : ℝ) = W * cos θ := by rw [h]; field_simp
  induction k with
  | zero => simp [cheb]
  | succ k ih =>
    refine ⟨by simp only [cheb]; rw [ih.2, pow_succ]; ring, ?_⟩
    simp only [cheb]
    have e : sin ((k + 1 + 1 : Nat) * θ) = 2 * cos θ * sin ((k + 1 : Nat) * θ) - sin (k * θ) := by
      have h1 := sin_add ((k + 1 : Nat) * θ) θ
      have h2 := sin_sub ((k + 1 : Nat) * θ) θ
      rw [show ((k + 1 : Nat) : ℝ) * θ + θ = (k + 1 + 1 : Nat) * θ by push_cast; ring] at h1
      rw [show ((k + 1 : Nat) : ℝ) * θ - θ = k * θ by push_cast; ring] at h2
      linarith
    push_cast at *
    rw [e, hX]
    linear_combination 2 * W * cos θ * ih.2 - W * ih.1

/-- `cheb` run forwards. -/
def chebGo (X W : Int) : Nat → Int → Int → Int
  | 0, a, _ => a
  | k + 1, a, b => chebGo X W k b (2 * X * b - W ^ 2 * a)

theorem chebGo_eq (X W : Int) (k j : Nat) : chebGo X W k (cheb X W j).1 (cheb X W j).2 = (cheb X W (j + k)).1 := by
  induction k generalizing j with
  | zero => rfl
  | succ k ih => rw [show j + (k + 1) = (j + 1) + k by omega, ← ih]; rfl

/-- The first `k` values are positive. -/
def chebPos (X W : Int) : Nat → Int → Int → Bool
  | 0, _, _ => true
  | k + 1, a, b => decide (0 < b) && chebPos X W k b (2 * X * b - W ^ 2 * a)

theorem chebPos_sound (X W : Int) (k j : Nat) (h : chebPos X W k (cheb X W j).1 (cheb X W j).2 = true) : ∀ i, i < k → 0 < (cheb X W (j + i)).2 := by
  induction k generalizing j with
  | zero => intro i hi; omega
  | succ k ih =>
    simp only [chebPos, Bool.and_eq_true, decide_eq_true_eq] at h
    intro i hi
    cases i with
    | zero => exact h.1
    | succ i => rw [show j + (i + 1) = (j + 1) + i by omega]; exact ih (j + 1) h.2 i (by omega)

/-- The certificate for `X/W < cos (π/q)`. -/
def below (X W : Int) (q : Nat) : Bool := decide (X < -W) || (decide (-W < X) && decide (X < W) && decide (chebGo X W q 0 1 < 0))

/-- The certificate for `cos (π/q) < X/W`. -/
def above (X W : Int) (q : Nat) : Bool := decide (-W < X) && decide (X < W) && chebPos X W q 0 1

theorem below_sound {X W : Int} (hW : 0 < W) {q : Nat} (hq : 1 ≤ q) (h : below X W q = true) : (X : ℝ) / W < cos (π / q) := by
  have hW' : (0 : ℝ) < W := by exact_mod_cast hW
  have hq' : (0 : ℝ) < q := by exact_mod_cast hq
  simp only [below, Bool.or_eq_true, Bool.and_eq_true, decide_eq_true_eq] at h
  rcases h with h | ⟨⟨h0, h1⟩, h2⟩
  · have : (X : ℝ) < -W := by exact_mod_cast h
    refine lt_of_lt_of_le ?_ (neg_one_le_cos _)
    rw [div_lt_iff₀ hW']; linarith
  · by_contra hne
    push Not at hne
    have l1 : -1 < (X : ℝ) / W := by rw [lt_div_iff₀ hW']; have : (-W : ℝ) < X := by exact_mod_cast h0
                                     linarith
    have l2 : (X : ℝ) / W < 1 := by rw [div_lt_one hW']; exact_mod_cast h1
    have hc := cos_arccos l1.le l2.le
    have hs : 0 < sin (arccos (X / W)) := by rw [sin_arccos]; exact Real.sqrt_pos.2 (by nlinarith)
    have hle : arccos (X / W) ≤ π / q := by
      have := arccos_le_arccos hne
      rwa [arccos_cos (by positivity) (div_le_self pi_pos.le (by exact_mod_cast hq))] at this
    have hsin : 0 ≤ sin (q * arccos (X / W)) := by
      refine sin_nonneg_of_nonneg_of_le_pi (mul_nonneg hq'.le (arccos_nonneg _)) ?_
      rw [le_div_iff₀ hq'] at hle; linarith
    have := (cheb_sin X W hW'.ne' _ hc q).1
    have h2 : (cheb X W q).1 < 0 := by
      have e := chebGo_eq X W q 0
      rw [Nat.zero_add] at e
      rwa [← e]
    have h3 : ((cheb X W q).1 : ℝ) < 0 := by exact_mod_cast h2
    have h4 := mul_pos hs hW'
    have h5 := mul_nonneg (pow_nonneg hW'.le q) hsin
    nlinarith

theorem above_sound {X W : Int} (hW : 0 < W) {q : Nat} (hq : 1 ≤ q) (h : above X W q = true) : cos (π / q) < (X : ℝ) / W := by
  have hW' : (0 : ℝ) < W := by exact_mod_cast hW
  have hq' : (0 : ℝ) < q := by exact_mod_cast hq
  simp only [above, Bool.and_eq_true, decide_eq_true_eq] at h
  obtain ⟨⟨h0, h1⟩, h2⟩ := h
  have h2 : ∀ k, k < q → 0 < (cheb X W k).2 := fun k hk => by simpa using chebPos_sound X W q 0 h2 k hk
  have l1 : -1 < (X : ℝ) / W := by rw [lt_div_iff₀ hW']; have : (-W : ℝ) < X := by exact_mod_cast h0
                                   linarith
  have l2 : (X : ℝ) / W < 1 := by rw [div_lt_one hW']; exact_mod_cast h1
  have hc := cos_arccos l1.le l2.le
  have hs : 0 < sin (arccos (X / W)) := by rw [sin_arccos]; exact Real.sqrt_pos.2 (by nlinarith)
  have hpi : arccos (X / W) < π := by
    refine lt_of_le_of_ne (arccos_le_pi _) fun e => ?_
    rw [e, sin_pi] at hs; exact lt_irrefl _ hs
  have key : ∀ k, k ≤ q → k * arccos ((X : ℝ) / W) < π := by
    intro k
    induction k with
    | zero => intro _; simpa using pi_pos
    | succ k ih =>
      intro hk
      have i1 := ih (by omega)
      have i2 : (0 : ℝ) < (cheb X W k).2 := by exact_mod_cast h2 k (by omega)
      have i3 := (cheb_sin X W hW'.ne' _ hc k).2
      have i4 := mul_pos i2 hs
      rw [i3] at i4
      have i5 : 0 < sin ((k + 1 : Nat) * arccos ((X : ℝ) / W)) := pos_of_mul_pos_right i4 (pow_nonneg hW'.le k)
      by_contra hge
      push Not at hge
      have i6 : ((k + 1 : Nat) : ℝ) * arccos ((X : ℝ) / W) - π < π := by push_cast; linarith
      have i7 := sin_nonneg_of_nonneg_of_le_pi (by linarith) i6.le
      rw [sin_sub_pi] at i7
      linarith
  have k1 := key q le_rfl
  have k2 : arccos ((X : ℝ) / W) < π / q := by rw [lt_div_iff₀ hq']; linarith
  have := cos_lt_cos_of_nonneg_of_le_pi (arccos_nonneg _) (div_le_self pi_pos.le (by exact_mod_cast hq)) k2
  rwa [hc] at this

/-! ### Polynomials on an interval -/

/-- A lower bound for `e₀ + e₁·t + … + e₄·t⁴` on `l/W ≤ t ≤ h/W` is not negative. -/
def nonneg (e0 e1 e2 e3 e4 l h W : Int) : Bool :=
  decide (0 ≤ e0 * W ^ 4 + e1 * (if 0 ≤ e1 then l else h) * W ^ 3 + e2 * (if 0 ≤ e2 then l else h) ^ 2 * W ^ 2
    + e3 * (if 0 ≤ e3 then l else h) ^ 3 * W + e4 * (if 0 ≤ e4 then l else h) ^ 4)

theorem term_le {l h W : Int} (hl : 0 ≤ l) (hW : 0 < W) {t : ℝ} (h1 : (l : ℝ) ≤ t * W) (h2 : t * W ≤ h) (e : Int) (k : Nat) :
    ((e * (if 0 ≤ e then l else h) ^ k : Int) : ℝ) ≤ e * (t * W) ^ k := by
  have hl' : (0 : ℝ) ≤ l := by exact_mod_cast hl
  push_cast
  split
  · have he : (0 : ℝ) ≤ e := by exact_mod_cast ‹0 ≤ e›
    exact mul_le_mul_of_nonneg_left (pow_le_pow_left₀ hl' h1 k) he
  · have he : (e : ℝ) ≤ 0 := by exact_mod_cast (by omega : e ≤ 0)
    exact mul_le_mul_of_nonpos_left (pow_le_pow_left₀ (hl'.trans h1) h2 k) he

theorem nonneg_sound {e0 e1 e2 e3 e4 l h W : Int} (hl : 0 ≤ l) (hW : 0 < W) {t : ℝ} (h1 : (l : ℝ) ≤ t * W) (h2 : t * W ≤ h)
    (hc : nonneg e0 e1 e2 e3 e4 l h W = true) : 0 ≤ (e0 : ℝ) + e1 * t + e2 * t ^ 2 + e3 * t ^ 3 + e4 * t ^ 4 := by
  have hW' : (0 : ℝ) < W := by exact_mod_cast hW
  simp only [nonneg, decide_eq_true_eq] at hc
  have hc' : (0 : ℝ) ≤ ((e0 * W ^ 4 + e1 * (if 0 ≤ e1 then l else h) * W ^ 3 + e2 * (if 0 ≤ e2 then l else h) ^ 2 * W ^ 2
    + e3 * (if 0 ≤ e3 then l else h) ^ 3 * W + e4 * (if 0 ≤ e4 then l else h) ^ 4 : Int) : ℝ) := by exact_mod_cast hc
  have t1 := term_le hl hW h1 h2 e1 1
  have t2 := term_le hl hW h1 h2 e2 2
  have t3 := term_le hl hW h1 h2 e3 3
  have t4 := term_le hl hW h1 h2 e4 4
  rw [pow_one, pow_one] at t1
  rw [Int.cast_add, Int.cast_add, Int.cast_add, Int.cast_add, Int.cast_mul _ (W ^ 3), Int.cast_mul _ (W ^ 2), Int.cast_mul _ W, Int.cast_mul e0, Int.cast_pow, Int.cast_pow,
    Int.cast_pow] at hc'
  have m1 := mul_le_mul_of_nonneg_right t1 (pow_nonneg hW'.le 3)
  have m2 := mul_le_mul_of_nonneg_right t2 (pow_nonneg hW'.le 2)
  have m3 := mul_le_mul_of_nonneg_right t3 hW'.le
  have : 0 ≤ ((e0 : ℝ) + e1 * t + e2 * t ^ 2 + e3 * t ^ 3 + e4 * t ^ 4) * W ^ 4 := by
    have e : ((e0 : ℝ) + e1 * t + e2 * t ^ 2 + e3 * t ^ 3 + e4 * t ^ 4) * W ^ 4 = e0 * W ^ 4 + e1 * (t * W) * W ^ 3 + e2 * (t * W) ^ 2 * W ^ 2
      + e3 * (t * W) ^ 3 * W + e4 * (t * W) ^ 4 := by ring
    rw [e]; linarith
  exact nonneg_of_mul_nonneg_left this (by positivity)

/-! ### A row of a table -/

def r0 (d0 d1 d2 d3 d4 : Int) : Int := d0 ^ 2 + d1 ^ 2 + d2 ^ 2 + d3 ^ 2 + d4 ^ 2
def r1 (d0 d1 d2 d3 d4 : Int) : Int := 2 * (d0 * d1 + d1 * d2 + d2 * d3 + d3 * d4)
def r2 (d0 d1 d2 d3 d4 : Int) : Int := 2 * (d0 * d2 + d1 * d3 + d2 * d4)
def r3 (d0 d1 d2 d3 d4 : Int) : Int := 2 * (d0 * d3 + d1 * d4)
def r4 (d0 _d1 _d2 _d3 d4 : Int) : Int := 2 * (d0 * d4)

/-- `u·sq(b) + v·sq(d)` is at least `m` on the interval. -/
def least (u v m b0 b1 b2 b3 d0 d1 d2 d3 d4 l h W : Int) : Bool :=
  let s0 := u * r0 b0 b1 b2 b3 0 + v * r0 d0 d1 d2 d3 d4
  let s1 := u * r1 b0 b1 b2 b3 0 + v * r1 d0 d1 d2 d3 d4
  let s2 := u * r2 b0 b1 b2 b3 0 + v * r2 d0 d1 d2 d3 d4
  let s3 := u * r3 b0 b1 b2 b3 0 + v * r3 d0 d1 d2 d3 d4
  let s4 := u * r4 b0 b1 b2 b3 0 + v * r4 d0 d1 d2 d3 d4
  nonneg (s0 + s1 + s2 + s3 + s4 - m) (-(s1 + 4 * s2 + 9 * s3 + 16 * s4)) (2 * s2 + 12 * s3 + 40 * s4) (-(4 * s3 + 32 * s4)) (8 * s4) l h W

theorem least_sound {u v m b0 b1 b2 b3 d0 d1 d2 d3 d4 l h W : Int} (hl : 0 ≤ l) (hW : 0 < W) {t : ℝ} (h1 : (l : ℝ) ≤ t * W) (h2 : t * W ≤ h)
    (hc : least u v m b0 b1 b2 b3 d0 d1 d2 d3 d4 l h W = true) : (m : ℝ) ≤ u * sq b0 b1 b2 b3 0 t + v * sq d0 d1 d2 d3 d4 t := by
  have := nonneg_sound hl hW h1 h2 hc
  simp only [r0, r1, r2, r3, r4] at this
  push_cast at this
  rw [← sub_nonneg]
  refine this.trans (le_of_eq ?_)
  unfold sq
  ring

/-- `10¹²·(1 - cos (π/q))`, rounded down, for `q = 1 … 20`. -/
def cutT : List Int := [2000000000000, 1000000000000, 500000000000, 292893218813, 190983005625, 133974596215, 99031132097, 76120467488, 60307379214, 48943483704, 40507026385, 34074173710, 29058182573, 25072087818, 21852399266, 19214719596, 17026900316, 15192246987, 13638696597, 12311659404]

theorem cut_cert : ∀ i : Fin 20, below (1000000000000 - (cutT.getD i.val 0 + 2)) 1000000000000 (i.val + 1) = true ∧
    above (1000000000000 - (cutT.getD i.val 0 - 1)) 1000000000000 (i.val + 1) = true ∧ 1 ≤ cutT.getD i.val 0 := by decide +kernel

/-- What is checked of a row: the response to the cycle of `2·(i+1)` bars has a power between `ln/ld` and `hn/hd`. -/
def row (i : Nat) (ln ld hn hd S a1 a2 a3 a4 b0 b1 b2 b3 : Int) (K : Nat) : Bool :=
  decide (0 < S) && Gain.half S a1 a2 a3 a4 K a1 a2 a3 a4 S
    && least 0 1 1 b0 b1 b2 b3 S (-a1) (-a2) (-a3) (-a4) (cutT.getD i 0 - 1) (cutT.getD i 0 + 2) 1000000000000
    && (decide (ln = 0) || least ld (-ln) 0 b0 b1 b2 b3 S (-a1) (-a2) (-a3) (-a4) (cutT.getD i 0 - 1) (cutT.getD i 0 + 2) 1000000000000)
    && least (-hd) hn 0 b0 b1 b2 b3 S (-a1) (-a2) (-a3) (-a4) (cutT.getD i 0 - 1) (cutT.getD i 0 + 2) 1000000000000

theorem power {batch : (Nat → ℝ) → List ℝ → M (Ret × List ℝ)} {o : Nat → ℝ} {s q : Nat} (hq1 : 1 ≤ q) (hq2 : q ≤ 20)
    {ln ld hn hd S a1 a2 a3 a4 b0 b1 b2 b3 : Int} {K : Nat} (hld : 0 < ld) (hhd : 0 < hd)
    (hc : row (q - 1) ln ld hn hd S a1 a2 a3 a4 b0 b1 b2 b3 K = true)
    (hrun : 0 < S → ∀ x : Nat → ℝ, ∃ y : Nat → ℝ, (∀ n, (S : ℝ) * y (n + 5) = b0 * x (n + 5) + b1 * x (n + 4) + b2 * x (n + 3) + b3 * x (n + 2)
        + a1 * y (n + 4) + a2 * y (n + 3) + a3 * y (n + 2) + a4 * y (n + 1)) ∧
      ∀ N, 5 ≤ N → batch o (pre x N) = .ok (.okay, pre (fun j => y (j + s)) (N - s))) :
    PowerBetween batch o s (2 * q) (ln / ld) (hn / hd) := by
  simp only [row, Bool.and_eq_true, decide_eq_true_eq] at hc
  obtain ⟨⟨⟨⟨hS, hh⟩, c1⟩, c2⟩, c3⟩ := hc
  obtain ⟨t1, t2, t3⟩ := cut_cert ⟨q - 1, by omega⟩
  simp only [show q - 1 + 1 = q by omega] at t1 t2 t3
  generalize cutT.getD (q - 1) 0 = v at *
  have u1 := below_sound (by norm_num) hq1 t1
  have u2 := above_sound (by norm_num) hq1 t2
  have ew : 2 * π / (2 * q : Nat) = π / q := by push_cast; rw [mul_div_mul_left _ _ (by norm_num : (2 : ℝ) ≠ 0)]
  push_cast at u1 u2
  rw [div_lt_iff₀ (by norm_num)] at u1
  rw [lt_div_iff₀ (by norm_num)] at u2
  have b1' : ((v - 1 : Int) : ℝ) ≤ (1 - cos (π / q)) * (1000000000000 : Int) := by push_cast; linarith
  have b2' : (1 - cos (π / q)) * (1000000000000 : Int) ≤ ((v + 2 : Int) : ℝ) := by push_cast; linarith
  have g1 := least_sound (by omega) (by norm_num) b1' b2' c1
  have g3 := least_sound (by omega) (by norm_num) b1' b2' c3
  push_cast at g1 g3
  rw [zero_mul, zero_add, one_mul] at g1
  obtain ⟨a, ψ, e, hst⟩ := steady (S := S) (a1 := a1) (a2 := a2) (a3 := a3) (a4 := a4) (b0 : ℝ) b1 b2 b3 K hS hh (2 * q) (by
    rw [ew]; exact lt_of_lt_of_le one_pos g1)
  rw [ew] at e
  rw [← e] at g3
  have hpos : (0 : ℝ) < sq S (-a1) (-a2) (-a3) (-a4) (1 - cos (π / q)) := lt_of_lt_of_le one_pos g1
  have hld' : (0 : ℝ) < ld := by exact_mod_cast hld
  have hhd' : (0 : ℝ) < hd := by exact_mod_cast hhd
  refine ⟨a, ψ, fun φ ε hε => ?_, ?_, ?_⟩
  · obtain ⟨y, y1, y2⟩ := hrun hS (wave (2 * q) φ)
    obtain ⟨n0, h0⟩ := hst φ y y1 ε hε
    refine ⟨n0 + 5, fun N hN => ⟨_, y2 N (by omega), by simp [pre], fun j v hj hv => ?_⟩⟩
    simp only [pre, List.getElem?_map, Option.map_eq_some_iff] at hv
    obtain ⟨i, hi, rfl⟩ := hv
    obtain ⟨hi', rfl⟩ := List.getElem?_eq_some_iff.1 hi
    rw [List.getElem_range]
    exact h0 (j + s) (by omega)
  · simp only [Bool.or_eq_true, decide_eq_true_eq] at c2
    rcases c2 with rfl | c2
    · rw [Int.cast_zero, zero_div]; positivity
    have g2 := least_sound (by omega) (by norm_num) b1' b2' c2
    push_cast at g2
    rw [← e] at g2
    rw [div_le_iff₀ hld']
    refine le_of_mul_le_mul_right ?_ hpos
    linarith
  · rw [le_div_iff₀ hhd']
    refine le_of_mul_le_mul_right ?_ hpos
    linarith

end Verif.Cutoff
