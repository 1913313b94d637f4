/-
Bounded input, bounded output: recursions of order at most four.

`z(n+4) = (a₁·z(n+3) + a₂·z(n+2) + a₃·z(n+1) + a₄·z(n)) / S + u(n)` with integers `S`, `aᵢ`. Unrolling the recursion `k` times
gives `z(n+4+k)` as a combination of the four values before it, with an error that is at most `gₖ` times the largest `|u|`. If the
combination shrinks for some `k`, the values stay bounded.
-/
import Mathlib.Tactic.Ring
import Mathlib.Tactic.Linarith
import Mathlib.Tactic.Positivity
import Mathlib.Tactic.NormNum
import Mathlib.Tactic.LinearCombination
import Mathlib.Algebra.Order.Archimedean.Basic
import Mathlib.Algebra.Order.Ring.Abs

namespace Verif.Gain

/-- The certificate: `c₀ … c₃` over `D` are the coefficients after unrolling, `g·S/D` the weight of the input; `wn/wd` and `p` are
the claimed bounds. -/
def check (S a1 a2 a3 a4 wn wd p : Int) : Nat → Int → Int → Int → Int → Int → Int → Bool
  | 0, c0, c1, c2, c3, g, D =>
    decide ((|c0| + |c1| + |c2| + |c3|) * wn + g * S * wd ≤ wn * D) && decide (|c0| + |c1| + |c2| + |c3| ≤ D)
      && decide (g * S * wd ≤ wn * D) && decide (|c0| + |c1| + |c2| + |c3| ≤ p * D)
  | k + 1, c0, c1, c2, c3, g, D =>
    decide (g * S * wd ≤ wn * D) && decide (|c0| + |c1| + |c2| + |c3| ≤ p * D)
      && check S a1 a2 a3 a4 wn wd p k (c0 * a1 + S * c1) (c0 * a2 + S * c2) (c0 * a3 + S * c3) (c0 * a4) (g * S + |c0|) (D * S)

variable {R : Type} [Field R] [LinearOrder R] [IsStrictOrderedRing R]

/-- `D·z(n+4+k)` is `c₀·z(n+3) + … + c₃·z(n)` up to `g·S·U`. -/
def StepAt (z : Nat → R) (S : Int) (U : R) (k : Nat) (c0 c1 c2 c3 g D : Int) : Prop :=
  0 < D ∧ ∀ n, |(D : R) * z (n + 4 + k) - ((c0 : R) * z (n + 3) + c1 * z (n + 2) + c2 * z (n + 1) + c3 * z n)| ≤ (g : R) * S * U

theorem StepAt.next {z u : Nat → R} {S a1 a2 a3 a4 : Int} {U : R} (hS : 0 < S)
    (hz : ∀ n, (S : R) * z (n + 4) = a1 * z (n + 3) + a2 * z (n + 2) + a3 * z (n + 1) + a4 * z n + S * u n) (hu : ∀ n, |u n| ≤ U)
    {k : Nat} {c0 c1 c2 c3 g D : Int} (h : StepAt z S U k c0 c1 c2 c3 g D) :
    StepAt z S U (k + 1) (c0 * a1 + S * c1) (c0 * a2 + S * c2) (c0 * a3 + S * c3) (c0 * a4) (g * S + |c0|) (D * S) := by
  refine ⟨mul_pos h.1 hS, fun n => ?_⟩
  have hS' : (0 : R) < S := by exact_mod_cast hS
  have h1 := h.2 (n + 1)
  have e : ((D * S : Int) : R) * z (n + 4 + (k + 1)) - (((c0 * a1 + S * c1 : Int) : R) * z (n + 3) + ((c0 * a2 + S * c2 : Int) : R) * z (n + 2)
      + ((c0 * a3 + S * c3 : Int) : R) * z (n + 1) + ((c0 * a4 : Int) : R) * z n) =
      S * ((D : R) * z (n + 1 + 4 + k) - ((c0 : R) * z (n + 1 + 3) + c1 * z (n + 1 + 2) + c2 * z (n + 1 + 1) + c3 * z (n + 1))) + c0 * (S * u n) := by
    have e1 : n + 4 + (k + 1) = n + 1 + 4 + k := by omega
    rw [e1]
    have := hz n
    have e2 : n + 1 + 3 = n + 4 := by omega
    have e3 : n + 1 + 2 = n + 3 := by omega
    have e4 : n + 1 + 1 = n + 2 := by omega
    rw [e2, e3, e4]
    push_cast
    linear_combination (c0 : R) * this
  rw [e]
  refine (abs_add_le _ _).trans ?_
  rw [abs_mul, abs_mul, abs_mul, abs_of_pos hS']
  have h2 : |(c0 : R)| * (S * |u n|) ≤ |(c0 : R)| * (S * U) :=
    mul_le_mul_of_nonneg_left (mul_le_mul_of_nonneg_left (hu n) hS'.le) (abs_nonneg _)
  have h3 := mul_le_mul_of_nonneg_left h1 hS'.le
  push_cast
  calc _ ≤ (S : R) * (g * S * U) + |(c0 : R)| * (S * U) := add_le_add h3 h2
    _ = _ := by ring

theorem abs4 (c0 c1 c2 c3 x0 x1 x2 x3 W : R) (h0 : |x0| ≤ W) (h1 : |x1| ≤ W) (h2 : |x2| ≤ W) (h3 : |x3| ≤ W) :
    |c0 * x0 + c1 * x1 + c2 * x2 + c3 * x3| ≤ (|c0| + |c1| + |c2| + |c3|) * W := by
  have a := abs_add_le (c0 * x0 + c1 * x1 + c2 * x2) (c3 * x3)
  have b := abs_add_le (c0 * x0 + c1 * x1) (c2 * x2)
  have c := abs_add_le (c0 * x0) (c1 * x1)
  rw [abs_mul c3] at a; rw [abs_mul c2] at b; rw [abs_mul c0, abs_mul c1] at c
  have e0 := mul_le_mul_of_nonneg_left h0 (abs_nonneg c0)
  have e1 := mul_le_mul_of_nonneg_left h1 (abs_nonneg c1)
  have e2 := mul_le_mul_of_nonneg_left h2 (abs_nonneg c2)
  have e3 := mul_le_mul_of_nonneg_left h3 (abs_nonneg c3)
  linarith

/-- What one `StepAt` says about a value whose four predecessors (at distance `k`) are at most `W`. -/
theorem StepAt.le {z : Nat → R} {S : Int} {U : R} {k : Nat} {c0 c1 c2 c3 g D : Int} (h : StepAt z S U k c0 c1 c2 c3 g D) (n : Nat) (W : R)
    (h0 : |z n| ≤ W) (h1 : |z (n + 1)| ≤ W) (h2 : |z (n + 2)| ≤ W) (h3 : |z (n + 3)| ≤ W) :
    (D : R) * |z (n + 4 + k)| ≤ ((|c0| + |c1| + |c2| + |c3| : Int) : R) * W + (g : R) * S * U := by
  have hD : (0 : R) < D := by exact_mod_cast h.1
  have a := abs4 (c0 : R) c1 c2 c3 _ _ _ _ W h3 h2 h1 h0
  have b := abs_le.1 (h.2 n)
  have c := abs_le.1 a
  rw [← abs_of_pos hD, ← abs_mul]
  push_cast
  rw [abs_le]
  constructor <;> linarith [b.1, b.2, c.1, c.2]

theorem sound {z u : Nat → R} {S a1 a2 a3 a4 wn wd p : Int} {U Z : R} (hS : 0 < S) (hwd : 0 < wd) (hp : 1 ≤ p) (hU : 0 ≤ U) (hZ0 : 0 ≤ Z)
    (hz : ∀ n, (S : R) * z (n + 4) = a1 * z (n + 3) + a2 * z (n + 2) + a3 * z (n + 1) + a4 * z n + S * u n) (hu : ∀ n, |u n| ≤ U)
    (hi : ∀ n, n < 4 → |z n| ≤ Z) :
    ∀ (fuel k : Nat) (c0 c1 c2 c3 g D : Int), check S a1 a2 a3 a4 wn wd p fuel c0 c1 c2 c3 g D = true → StepAt z S U k c0 c1 c2 c3 g D →
      (∀ j, k ≤ j → j ≤ k + fuel → |z (4 + j)| ≤ wn / wd * U + p * Z) ∧
      ∀ n W, W = wn / wd * U + p * Z → |z n| ≤ W → |z (n + 1)| ≤ W → |z (n + 2)| ≤ W → |z (n + 3)| ≤ W → |z (n + 4 + (k + fuel))| ≤ W := by
  have hwd' : (0 : R) < wd := by exact_mod_cast hwd
  have early : ∀ (k : Nat) (c0 c1 c2 c3 g D : Int), g * S * wd ≤ wn * D → |c0| + |c1| + |c2| + |c3| ≤ p * D →
      StepAt z S U k c0 c1 c2 c3 g D → |z (4 + k)| ≤ wn / wd * U + p * Z := by
    intro k c0 c1 c2 c3 g D h1 h2 hs
    have h := hs.le 0 Z (hi 0 (by omega)) (hi 1 (by omega)) (hi 2 (by omega)) (hi 3 (by omega))
    have hD : (0 : R) < D := by exact_mod_cast hs.1
    rw [show 0 + 4 + k = 4 + k by omega] at h
    have h1' : (g : R) * S * wd ≤ wn * D := by exact_mod_cast h1
    have h2' : ((|c0| + |c1| + |c2| + |c3| : Int) : R) ≤ p * D := by exact_mod_cast h2
    have h1'' : (g : R) * S ≤ wn / wd * D := by
      rw [div_mul_eq_mul_div, le_div_iff₀ hwd']; exact h1'
    refine le_of_mul_le_mul_left (a := (D : R)) ?_ hD
    refine h.trans ?_
    have e1 := mul_le_mul_of_nonneg_right h2' hZ0
    have e2 := mul_le_mul_of_nonneg_right h1'' hU
    linarith
  intro fuel
  induction fuel with
  | zero =>
    intro k c0 c1 c2 c3 g D hc hs
    simp only [check, Bool.and_eq_true, decide_eq_true_eq] at hc
    obtain ⟨⟨⟨h1, h2⟩, h3⟩, h4⟩ := hc
    refine ⟨fun j hj hj' => ?_, fun n W hW g0 g1 g2 g3 => ?_⟩
    · obtain rfl : j = k := by omega
      exact early _ _ _ _ _ _ _ h3 h4 hs
    · have h := hs.le n W g0 g1 g2 g3
      have hD : (0 : R) < D := by exact_mod_cast hs.1
      rw [Nat.add_zero]
      refine le_of_mul_le_mul_left (a := (D : R)) ?_ hD
      refine h.trans ?_
      have h1' : ((|c0| + |c1| + |c2| + |c3| : Int) : R) * wn + g * S * wd ≤ wn * D := by exact_mod_cast h1
      have h2' : ((|c0| + |c1| + |c2| + |c3| : Int) : R) ≤ D := by exact_mod_cast h2
      have hp' : (0 : R) ≤ p := by exact_mod_cast (by omega : (0 : Int) ≤ p)
      have h1'' : ((|c0| + |c1| + |c2| + |c3| : Int) : R) * (wn / wd) + g * S ≤ wn / wd * D := by
        have : ((|c0| + |c1| + |c2| + |c3| : Int) : R) * (wn / wd) + g * S = (((|c0| + |c1| + |c2| + |c3| : Int) : R) * wn + g * S * wd) / wd := by
          field_simp
        rw [this, div_mul_eq_mul_div]
        exact div_le_div_of_nonneg_right h1' hwd'.le
      have e1 := mul_le_mul_of_nonneg_right h1'' hU
      have e2 := mul_le_mul_of_nonneg_right h2' (mul_nonneg hp' hZ0)
      rw [hW]
      generalize ((|c0| + |c1| + |c2| + |c3| : Int) : R) = L at *
      linarith
  | succ fuel ih =>
    intro k c0 c1 c2 c3 g D hc hs
    simp only [check, Bool.and_eq_true, decide_eq_true_eq] at hc
    obtain ⟨⟨h1, h2⟩, h3⟩ := hc
    obtain ⟨f1, f2⟩ := ih (k + 1) _ _ _ _ _ _ h3 (hs.next hS hz hu)
    refine ⟨fun j hj hj' => ?_, fun n W hW g0 g1 g2 g3 => ?_⟩
    · rcases Nat.eq_or_lt_of_le hj with rfl | hlt
      · exact early _ _ _ _ _ _ _ h1 h2 hs
      · exact f1 j hlt (by omega)
    · have := f2 n W hW g0 g1 g2 g3
      rwa [show n + 4 + (k + 1 + fuel) = n + 4 + (k + (fuel + 1)) by omega] at this

/-- The recursion stays within `wn/wd` times the largest input plus `p` times the largest initial value. -/
theorem bounded {z u : Nat → R} {S a1 a2 a3 a4 wn wd p : Int} {U Z : R} (K : Nat) (hS : 0 < S) (hwd : 0 < wd) (hwn : 0 ≤ wn) (hp : 1 ≤ p)
    (hc : check S a1 a2 a3 a4 wn wd p K a1 a2 a3 a4 1 S = true)
    (hz : ∀ n, (S : R) * z (n + 4) = a1 * z (n + 3) + a2 * z (n + 2) + a3 * z (n + 1) + a4 * z n + S * u n) (hu : ∀ n, |u n| ≤ U)
    (hi : ∀ n, n < 4 → |z n| ≤ Z) (n : Nat) : |z n| ≤ wn / wd * U + p * Z := by
  have hS' : (0 : R) < S := by exact_mod_cast hS
  have hU : 0 ≤ U := (abs_nonneg _).trans (hu 0)
  have hZ0 : 0 ≤ Z := (abs_nonneg _).trans (hi 0 (by omega))
  have hwd' : (0 : R) < wd := by exact_mod_cast hwd
  have hwn' : (0 : R) ≤ wn := by exact_mod_cast hwn
  have hp' : (1 : R) ≤ p := by exact_mod_cast hp
  have st : StepAt z S U 0 a1 a2 a3 a4 1 S := by
    refine ⟨hS, fun n => ?_⟩
    rw [Nat.add_zero, hz n]
    have e : ∀ t v : R, t + v - t = v := fun t v => by ring
    rw [e, abs_mul, abs_of_pos hS', Int.cast_one, one_mul]
    exact mul_le_mul_of_nonneg_left (hu n) hS'.le
  obtain ⟨f1, f2⟩ := sound hS hwd hp hU hZ0 hz hu hi K 0 _ _ _ _ _ _ hc st
  induction n using Nat.strong_induction_on with
  | _ n ih =>
    by_cases h4 : n < 4
    · refine (hi n h4).trans ?_
      have h1 : 0 ≤ (wn : R) / wd * U := mul_nonneg (div_nonneg hwn' hwd'.le) hU
      have h2 : Z ≤ p * Z := le_mul_of_one_le_left hZ0 hp'
      linarith
    · by_cases hk : n ≤ 4 + K
      · have := f1 (n - 4) (by omega) (by omega)
        rwa [show 4 + (n - 4) = n by omega] at this
      · have := f2 (n - (4 + K)) _ rfl (ih _ (by omega)) (ih _ (by omega)) (ih _ (by omega)) (ih _ (by omega))
        rwa [show n - (4 + K) + 4 + (0 + K) = n by omega] at this

/-! ### Growth -/

/-- Quadratic forms that are nowhere negative, by elimination. -/
def psd2 (a b c : Int) : Bool := decide (0 < a) && decide (b * b ≤ a * c)
def psd3 (a b c d e f : Int) : Bool := decide (0 < a) && psd2 (a * d - b * b) (a * e - b * c) (a * f - c * c)
def psd4 (a b c d e f g h i j : Int) : Bool :=
  decide (0 < a) && psd3 (a * e - b * b) (a * f - b * c) (a * g - b * d) (a * h - c * c) (a * i - c * d) (a * j - d * d)

theorem psd2_sound {a b c : Int} (h : psd2 a b c = true) (x y : R) : 0 ≤ (a : R) * x ^ 2 + 2 * b * x * y + c * y ^ 2 := by
  simp only [psd2, Bool.and_eq_true, decide_eq_true_eq] at h
  have ha : (0 : R) < a := by exact_mod_cast h.1
  have hb : (b : R) * b ≤ a * c := by exact_mod_cast h.2
  refine nonneg_of_mul_nonneg_right (a := (a : R)) ?_ ha
  have : (a : R) * (a * x ^ 2 + 2 * b * x * y + c * y ^ 2) = (a * x + b * y) ^ 2 + (a * c - b * b) * y ^ 2 := by ring
  rw [this]
  exact add_nonneg (sq_nonneg _) (mul_nonneg (sub_nonneg.2 hb) (sq_nonneg _))

theorem psd3_sound {a b c d e f : Int} (h : psd3 a b c d e f = true) (x y w : R) :
    0 ≤ (a : R) * x ^ 2 + 2 * b * x * y + 2 * c * x * w + d * y ^ 2 + 2 * e * y * w + f * w ^ 2 := by
  simp only [psd3, Bool.and_eq_true, decide_eq_true_eq] at h
  have ha : (0 : R) < a := by exact_mod_cast h.1
  have hq := psd2_sound (R := R) h.2 y w
  push_cast at hq
  refine nonneg_of_mul_nonneg_right (a := (a : R)) ?_ ha
  have : (a : R) * (a * x ^ 2 + 2 * b * x * y + 2 * c * x * w + d * y ^ 2 + 2 * e * y * w + f * w ^ 2) =
      (a * x + b * y + c * w) ^ 2 + ((a * d - b * b) * y ^ 2 + 2 * (a * e - b * c) * y * w + (a * f - c * c) * w ^ 2) := by ring
  rw [this]
  exact add_nonneg (sq_nonneg _) hq

theorem psd4_sound {a b c d e f g h i j : Int} (hp : psd4 a b c d e f g h i j = true) (x y w v : R) :
    0 ≤ (a : R) * x ^ 2 + 2 * b * x * y + 2 * c * x * w + 2 * d * x * v + e * y ^ 2 + 2 * f * y * w + 2 * g * y * v + h * w ^ 2
      + 2 * i * w * v + j * v ^ 2 := by
  simp only [psd4, Bool.and_eq_true, decide_eq_true_eq] at hp
  have ha : (0 : R) < a := by exact_mod_cast hp.1
  have hq := psd3_sound (R := R) hp.2 y w v
  push_cast at hq
  refine nonneg_of_mul_nonneg_right (a := (a : R)) ?_ ha
  have : (a : R) * (a * x ^ 2 + 2 * b * x * y + 2 * c * x * w + 2 * d * x * v + e * y ^ 2 + 2 * f * y * w + 2 * g * y * v + h * w ^ 2
      + 2 * i * w * v + j * v ^ 2) = (a * x + b * y + c * w + d * v) ^ 2 + ((a * e - b * b) * y ^ 2 + 2 * (a * f - b * c) * y * w
      + 2 * (a * g - b * d) * y * v + (a * h - c * c) * w ^ 2 + 2 * (a * i - c * d) * w * v + (a * j - d * d) * v ^ 2) := by ring
  rw [this]
  exact add_nonneg (sq_nonneg _) hq

/-- A quadratic form in four consecutive values, newest first. -/
structure Form where (p11 p12 p13 p14 p22 p23 p24 p33 p34 p44 : Int)

/-- Its value. -/
def Form.val (P : Form) (x y w v : R) : R :=
  (P.p11 : R) * x ^ 2 + 2 * P.p12 * x * y + 2 * P.p13 * x * w + 2 * P.p14 * x * v + P.p22 * y ^ 2 + 2 * P.p23 * y * w + 2 * P.p24 * y * v
    + P.p33 * w ^ 2 + 2 * P.p34 * w * v + P.p44 * v ^ 2

/-- The certificate: one step of the recursion multiplies the form by at least `rn/rd`. -/
def Form.grows (P : Form) (S a1 a2 a3 a4 rn rd : Int) : Bool :=
  psd4 (rd * (P.p11 * a1 * a1 + 2 * S * a1 * P.p12 + S * S * P.p22) - rn * S * S * P.p11)
    (rd * (P.p11 * a1 * a2 + S * (a1 * P.p13 + a2 * P.p12) + S * S * P.p23) - rn * S * S * P.p12)
    (rd * (P.p11 * a1 * a3 + S * (a1 * P.p14 + a3 * P.p12) + S * S * P.p24) - rn * S * S * P.p13)
    (rd * (P.p11 * a1 * a4 + S * (a4 * P.p12)) - rn * S * S * P.p14)
    (rd * (P.p11 * a2 * a2 + 2 * S * a2 * P.p13 + S * S * P.p33) - rn * S * S * P.p22)
    (rd * (P.p11 * a2 * a3 + S * (a2 * P.p14 + a3 * P.p13) + S * S * P.p34) - rn * S * S * P.p23)
    (rd * (P.p11 * a2 * a4 + S * (a4 * P.p13)) - rn * S * S * P.p24)
    (rd * (P.p11 * a3 * a3 + 2 * S * a3 * P.p14 + S * S * P.p44) - rn * S * S * P.p33)
    (rd * (P.p11 * a3 * a4 + S * (a4 * P.p14)) - rn * S * S * P.p34)
    (rd * (P.p11 * a4 * a4) - rn * S * S * P.p44)

theorem Form.grows_sound {P : Form} {S a1 a2 a3 a4 rn rd : Int} (hS : 0 < S) (hrd : 0 < rd) (h : P.grows S a1 a2 a3 a4 rn rd = true) {z : Nat → R} (n : Nat)
    (hz : (S : R) * z (n + 4) = a1 * z (n + 3) + a2 * z (n + 2) + a3 * z (n + 1) + a4 * z n) :
    (rn : R) / rd * P.val (z (n + 3)) (z (n + 2)) (z (n + 1)) (z n) ≤ P.val (z (n + 4)) (z (n + 3)) (z (n + 2)) (z (n + 1)) := by
  have hS' : (0 : R) < S := by exact_mod_cast hS
  have hrd' : (0 : R) < rd := by exact_mod_cast hrd
  have hq := psd4_sound (R := R) h (z (n + 3)) (z (n + 2)) (z (n + 1)) (z n)
  rw [div_mul_eq_mul_div, div_le_iff₀ hrd']
  refine le_of_mul_le_mul_left (a := (S : R) ^ 2) ?_ (by positivity)
  rw [← sub_nonneg]
  refine le_of_le_of_eq hq ?_
  unfold Form.val
  push_cast
  have e : z (n + 4) = (a1 * z (n + 3) + a2 * z (n + 2) + a3 * z (n + 1) + a4 * z n) / S := by
    rw [eq_div_iff hS'.ne', mul_comm]; exact hz
  rw [e]
  field_simp
  ring

/-- A form that grows drives the values beyond every limit. -/
theorem Form.diverges [Archimedean R] (P : Form) {S a1 a2 a3 a4 rn rd : Int} (hS : 0 < S) (hrd : 0 < rd) (hr : rd < rn)
    (h : P.grows S a1 a2 a3 a4 rn rd = true) {z : Nat → R}
    (hz : ∀ n, (S : R) * z (n + 4) = a1 * z (n + 3) + a2 * z (n + 2) + a3 * z (n + 1) + a4 * z n)
    (h0 : 0 < P.val (z 3) (z 2) (z 1) (z 0)) (C : R) : ∃ n, C < |z n| := by
  by_contra hne
  push Not at hne
  have hrd' : (0 : R) < rd := by exact_mod_cast hrd
  have hr' : (1 : R) < rn / rd := by rw [lt_div_iff₀ hrd', one_mul]; exact_mod_cast hr
  have gr : ∀ n, (rn / rd : R) ^ n * P.val (z 3) (z 2) (z 1) (z 0) ≤ P.val (z (n + 3)) (z (n + 2)) (z (n + 1)) (z n) := by
    intro n
    induction n with
    | zero => simp
    | succ n ih =>
      refine le_trans ?_ (P.grows_sound hS hrd h n (hz n))
      rw [pow_succ', mul_assoc]
      exact mul_le_mul_of_nonneg_left ih (by linarith)
  have hC : 0 ≤ C := (abs_nonneg _).trans (hne 0)
  have prod : ∀ (p : R) (i j : Nat), p * z i * z j ≤ |p| * (C * C) := by
    intro p i j
    calc p * z i * z j ≤ |p * z i * z j| := le_abs_self _
      _ = |p| * (|z i| * |z j|) := by rw [abs_mul, abs_mul, mul_assoc]
      _ ≤ |p| * (C * C) := mul_le_mul_of_nonneg_left (mul_le_mul (hne i) (hne j) (abs_nonneg _) hC) (abs_nonneg _)
  obtain ⟨M, hM⟩ : ∃ M : R, ∀ n, P.val (z (n + 3)) (z (n + 2)) (z (n + 1)) (z n) ≤ M := by
    refine ⟨(|(P.p11 : R)| + |2 * (P.p12 : R)| + |2 * (P.p13 : R)| + |2 * (P.p14 : R)| + |(P.p22 : R)| + |2 * (P.p23 : R)| + |2 * (P.p24 : R)|
      + |(P.p33 : R)| + |2 * (P.p34 : R)| + |(P.p44 : R)|) * (C * C), fun n => ?_⟩
    unfold Form.val
    have := prod (P.p11 : R) (n + 3) (n + 3)
    have := prod (2 * (P.p12 : R)) (n + 3) (n + 2)
    have := prod (2 * (P.p13 : R)) (n + 3) (n + 1)
    have := prod (2 * (P.p14 : R)) (n + 3) n
    have := prod (P.p22 : R) (n + 2) (n + 2)
    have := prod (2 * (P.p23 : R)) (n + 2) (n + 1)
    have := prod (2 * (P.p24 : R)) (n + 2) n
    have := prod (P.p33 : R) (n + 1) (n + 1)
    have := prod (2 * (P.p34 : R)) (n + 1) n
    have := prod (P.p44 : R) n n
    simp only [pow_two, ← mul_assoc, add_mul] at *
    linarith
  obtain ⟨n, hn⟩ := pow_unbounded_of_one_lt (M / P.val (z 3) (z 2) (z 1) (z 0)) hr'
  rw [div_lt_iff₀ h0] at hn
  exact absurd ((hn.trans_le (gr n)).trans_le (hM n)) (lt_irrefl _)

end Verif.Gain
