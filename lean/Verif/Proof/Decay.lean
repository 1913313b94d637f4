/-
Free recursions of order at most four that die out: some unrolled step at least halves the values.
-/
import Verif.Proof.Gain

namespace Verif.Gain

/-- The certificate: after `k` unrolled steps the coefficients add up to at most one half. -/
def half (S a1 a2 a3 a4 : Int) : Nat → Int → Int → Int → Int → Int → Bool
  | 0, c0, c1, c2, c3, D => decide (2 * (|c0| + |c1| + |c2| + |c3|) ≤ D)
  | k + 1, c0, c1, c2, c3, D => half S a1 a2 a3 a4 k (c0 * a1 + S * c1) (c0 * a2 + S * c2) (c0 * a3 + S * c3) (c0 * a4) (D * S)

variable {R : Type} [Field R] [LinearOrder R] [IsStrictOrderedRing R]

theorem half_sound {z : Nat → R} {S a1 a2 a3 a4 : Int} (hS : 0 < S)
    (hz : ∀ n, (S : R) * z (n + 4) = a1 * z (n + 3) + a2 * z (n + 2) + a3 * z (n + 1) + a4 * z n) :
    ∀ (fuel k : Nat) (c0 c1 c2 c3 g D : Int), half S a1 a2 a3 a4 fuel c0 c1 c2 c3 D = true → StepAt z S (0 : R) k c0 c1 c2 c3 g D →
      ∀ n W, |z n| ≤ W → |z (n + 1)| ≤ W → |z (n + 2)| ≤ W → |z (n + 3)| ≤ W → |z (n + 4 + (k + fuel))| ≤ W / 2 := by
  intro fuel
  induction fuel with
  | zero =>
    intro k c0 c1 c2 c3 g D hc hs n W g0 g1 g2 g3
    simp only [half, decide_eq_true_eq] at hc
    have h := hs.le n W g0 g1 g2 g3
    have hD : (0 : R) < D := by exact_mod_cast hs.1
    have hW : 0 ≤ W := (abs_nonneg _).trans g0
    have hc' : 2 * ((|c0| + |c1| + |c2| + |c3| : Int) : R) ≤ D := by exact_mod_cast hc
    rw [Nat.add_zero]
    refine le_of_mul_le_mul_left (a := (D : R)) ?_ hD
    refine h.trans ?_
    have := mul_le_mul_of_nonneg_right hc' hW
    generalize ((|c0| + |c1| + |c2| + |c3| : Int) : R) = L at *
    linarith
  | succ fuel ih =>
    intro k c0 c1 c2 c3 g D hc hs n W g0 g1 g2 g3
    simp only [half] at hc
    have := ih (k + 1) _ _ _ _ _ _ hc (hs.next (u := fun _ => 0) hS (fun n => by rw [hz]; ring) (fun _ => by simp)) n W g0 g1 g2 g3
    rwa [show n + 4 + (k + 1 + fuel) = n + 4 + (k + (fuel + 1)) by omega] at this

theorem decays_of {z : Nat → R} [Archimedean R] (K : Nat)
    (h : ∀ n W, |z n| ≤ W → |z (n + 1)| ≤ W → |z (n + 2)| ≤ W → |z (n + 3)| ≤ W → |z (n + 4 + K)| ≤ W / 2) (e : R) (he : 0 < e) :
    ∃ n0, ∀ n, n0 ≤ n → |z n| ≤ e := by
  obtain ⟨W, hW0, hW⟩ : ∃ W, 0 ≤ W ∧ ∀ n, n < 4 + K → |z n| ≤ W := by
    generalize 4 + K = m
    induction m with
    | zero => exact ⟨0, le_rfl, fun n hn => by omega⟩
    | succ m ih =>
      obtain ⟨W, h0, h1⟩ := ih
      refine ⟨W + |z m|, by positivity, fun n hn => ?_⟩
      rcases Nat.lt_succ_iff_lt_or_eq.1 hn with hn | rfl
      · have := h1 n hn; have := abs_nonneg (z m); linarith
      · linarith
  have all : ∀ n, |z n| ≤ W := by
    intro n
    induction n using Nat.strong_induction_on with
    | _ n ih =>
      by_cases hn : n < 4 + K
      · exact hW n hn
      · have := h (n - (4 + K)) W (ih _ (by omega)) (ih _ (by omega)) (ih _ (by omega)) (ih _ (by omega))
        rw [show n - (4 + K) + 4 + K = n by omega] at this
        linarith
  have pw : ∀ m n, m * (4 + K) ≤ n → |z n| ≤ W / 2 ^ m := by
    intro m
    induction m with
    | zero => intro n _; simpa using all n
    | succ m ih =>
      intro n hn
      rw [Nat.add_mul, Nat.one_mul] at hn
      have := h (n - (4 + K)) (W / 2 ^ m) (ih _ (by omega)) (ih _ (by omega)) (ih _ (by omega)) (ih _ (by omega))
      rw [show n - (4 + K) + 4 + K = n by omega] at this
      rw [pow_succ, ← div_div]
      exact this
  obtain ⟨m, hm⟩ := pow_unbounded_of_one_lt (W / e) (by norm_num : (1 : R) < 2)
  refine ⟨m * (4 + K), fun n hn => (pw m n hn).trans ?_⟩
  rw [div_lt_iff₀ he] at hm
  rw [div_le_iff₀ (by positivity)]
  linarith

/-- A free recursion with a certificate dies out. -/
theorem decays [Archimedean R] {z : Nat → R} {S a1 a2 a3 a4 : Int} (K : Nat) (hS : 0 < S)
    (hc : half S a1 a2 a3 a4 K a1 a2 a3 a4 S = true)
    (hz : ∀ n, (S : R) * z (n + 4) = a1 * z (n + 3) + a2 * z (n + 2) + a3 * z (n + 1) + a4 * z n) (e : R) (he : 0 < e) :
    ∃ n0, ∀ n, n0 ≤ n → |z n| ≤ e := by
  refine decays_of K (fun n W g0 g1 g2 g3 => ?_) e he
  have st : StepAt z S (0 : R) 0 a1 a2 a3 a4 1 S := by
    refine ⟨hS, fun n => ?_⟩
    rw [Nat.add_zero, hz n]; simp
  have := half_sound hS hz K 0 _ _ _ _ _ _ hc st n W g0 g1 g2 g3
  rwa [Nat.zero_add] at this

end Verif.Gain
