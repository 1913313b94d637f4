/- Exponential averages over a field: closed relations (helper lemmas). -/
import Verif.Proof.Ema
import Verif.Spec.Ema
import Verif.Spec.Window
import Mathlib.Algebra.Order.BigOperators.Group.Finset
import Mathlib.Tactic.Ring
import Mathlib.Tactic.FieldSimp
import Mathlib.Tactic.Linarith

namespace Verif
open Spec Finset
variable {R : Type} [Field R] [LinearOrder R] [IsStrictOrderedRing R] [CMath R]

theorem emaPer_eq (p : Nat) : (emaPer (p : Int) : R) = emaCoef p := by simp [emaPer, emaCoef]

theorem emaCoef_bounds (p : Nat) (hp : 1 ≤ p) : (0 : R) < emaCoef p ∧ emaCoef p ≤ (1 : R) := by
  have h : (1 : R) ≤ p := by exact_mod_cast hp
  unfold emaCoef
  constructor
  · apply div_pos <;> linarith
  · rw [div_le_one (by linarith)]; linarith

theorem emaRec_eq (a : R) (x : Nat → R) (n : Nat) : emaRec a x n = ema a x n := by
  induction n with
  | zero => rfl
  | succ n ih => simp only [emaRec, ema, ih]; ring

/-- Convex combinations stay between bounds. -/
theorem convex_bounds {a u v lo hi : R} (h0 : 0 ≤ a) (h1 : a ≤ 1) (hu : lo ≤ u ∧ u ≤ hi) (hv : lo ≤ v ∧ v ≤ hi) :
    lo ≤ u + a * (v - u) ∧ u + a * (v - u) ≤ hi := by
  constructor
  · nlinarith [mul_nonneg h0 (sub_nonneg.2 hv.1), mul_nonneg (sub_nonneg.2 h1) (sub_nonneg.2 hu.1)]
  · nlinarith [mul_nonneg h0 (sub_nonneg.2 hv.2), mul_nonneg (sub_nonneg.2 h1) (sub_nonneg.2 hu.2)]

theorem ema_bounds_aux {a : R} (h0 : 0 ≤ a) (h1 : a ≤ 1) (x : Nat → R) (lo hi : R) (n : Nat)
    (h : ∀ k, k ≤ n → lo ≤ x k ∧ x k ≤ hi) : lo ≤ ema a x n ∧ ema a x n ≤ hi := by
  induction n with
  | zero => exact h 0 le_rfl
  | succ n ih => exact convex_bounds h0 h1 (ih fun k hk => h k (by omega)) (h (n + 1) le_rfl)

theorem demaE1_eq (a : R) (x : Nat → R) (i : Nat) : demaE1 a (c! 1 - a) x (i + 1) = ema a x i := by
  induction i with
  | zero => simp [demaE1, ema]; ring
  | succ i ih => rw [demaE1, ih, ema]; simp; ring

theorem demaE2_eq (z a : R) (p : Nat) (x : Nat → R) (i : Nat) :
    demaE2 z a (c! 1 - a) p x (i + (p - 1) + 1) = ema a (shift (p - 1) (ema a x)) i := by
  induction i with
  | zero => simp only [demaE2, demaE1_eq]; simp [ema, shift]; ring
  | succ i ih =>
    rw [demaE2]
    simp only [demaE1_eq]
    rw [if_pos (by omega), if_neg (by omega), show i + 1 + (p - 1) = i + (p - 1) + 1 by omega, ih]
    simp only [ema, shift, show i + 1 + (p - 1) = i + (p - 1) + 1 by omega]
    simp; ring

theorem temaE3_eq (z a : R) (p : Nat) (x : Nat → R) (i : Nat) :
    temaE3 z a (c! 1 - a) p x (i + (p - 1) * 2 + 1)
      = ema a (shift (p - 1) (ema a (shift (p - 1) (ema a x)))) i := by
  induction i with
  | zero =>
    have e : 0 + (p - 1) * 2 = (p - 1) + (p - 1) := by omega
    simp only [temaE3, e, demaE2_eq]
    simp [show (p - 1) + (p - 1) = (p - 1) * 2 by omega, ema, shift]; ring
  | succ i ih =>
    rw [temaE3]
    have e : demaE2 z a (c! 1 - a) p x (i + 1 + (p - 1) * 2 + 1)
        = ema a (shift (p - 1) (ema a x)) (i + 1 + (p - 1)) := by
      rw [show i + 1 + (p - 1) * 2 = i + 1 + (p - 1) + (p - 1) by omega, demaE2_eq]
    rw [if_pos (by omega), if_neg (by omega), e, show i + 1 + (p - 1) * 2 = i + (p - 1) * 2 + 1 by omega, ih]
    simp only [ema, shift, show i + 1 + (p - 1) = i + (p - 1) + 1 by omega]
    simp; ring

theorem trixE2_eq (a : R) (p : Nat) (hp : 2 ≤ p) (x : Nat → R) (i : Nat) :
    trixE2 a p x (i + (p - 1)) = ema a (shift (p - 1) (ema a x)) i := by
  induction i with
  | zero =>
    obtain ⟨q, hq⟩ : ∃ q, p - 1 = q + 1 := ⟨p - 2, by omega⟩
    simp [hq, trixE2, emaRec_eq, ema, shift]
  | succ i ih =>
    rw [show i + 1 + (p - 1) = (i + (p - 1)) + 1 by omega, trixE2, if_neg (by omega), if_pos (by omega), ih,
      emaRec_eq]
    simp only [ema, shift, show i + 1 + (p - 1) = i + (p - 1) + 1 by omega]
    ring

theorem trixE3_eq (a : R) (p : Nat) (hp : 2 ≤ p) (x : Nat → R) (i : Nat) :
    trixE3 a p x (i + (p - 1) * 2) = ema a (shift (p - 1) (ema a (shift (p - 1) (ema a x)))) i := by
  induction i with
  | zero =>
    obtain ⟨q, hq⟩ : ∃ q, (p - 1) * 2 = q + 1 := ⟨(p - 1) * 2 - 1, by omega⟩
    rw [Nat.zero_add, hq, trixE3, if_pos (by omega), if_pos (by omega), ← hq,
      show (p - 1) * 2 = (p - 1) + (p - 1) by omega, trixE2_eq a p hp]
    simp [ema, shift]
  | succ i ih =>
    rw [show i + 1 + (p - 1) * 2 = (i + (p - 1) * 2) + 1 by omega, trixE3, if_pos (by omega), if_neg (by omega),
      if_pos (by omega), ih, show i + (p - 1) * 2 + 1 = (i + 1 + (p - 1)) + (p - 1) by omega, trixE2_eq a p hp]
    simp only [ema, shift, show i + 1 + (p - 1) = i + (p - 1) + 1 by omega]
    ring

theorem sumTo_eq (x : Nat → R) (n : Nat) : sumTo x n = ∑ k ∈ range n, x k := by
  induction n with
  | zero => simp [sumTo]
  | succ n ih => rw [sumTo, ih, sum_range_succ]

theorem mean_bounds (x : Nat → R) (p j : Nat) (hp : 1 ≤ p) (lo hi : R)
    (h : ∀ k, j ≤ k → k < j + p → lo ≤ x k ∧ x k ≤ hi) : lo ≤ winMean p x j ∧ winMean p x j ≤ hi := by
  have hp' : (0 : R) < p := by exact_mod_cast hp
  unfold winMean winSum
  rw [le_div_iff₀ hp', div_le_iff₀ hp']
  constructor
  · have := card_nsmul_le_sum (range p) (fun k => x (j + k)) lo (fun k hk => (h (j + k) (by omega)
      (by have := mem_range.1 hk; omega)).1)
    simpa [mul_comm] using this
  · have := sum_le_card_nsmul (range p) (fun k => x (j + k)) hi (fun k hk => (h (j + k) (by omega)
      (by have := mem_range.1 hk; omega)).2)
    simpa [mul_comm] using this

end Verif
