/- Differences of recursive filters fade. -/
import Verif.Proof.Fading
import Verif.Proof.Decay

namespace Verif.Memory
variable {R : Type} [Field R] [LinearOrder R] [IsStrictOrderedRing R]

/-- A rate at which a stable recursion of order two forgets. -/
def rate2 (p q : R) : R := 1 - min (1 - |q|) (1 + q - |p|) / 4

theorem rate2_spec {p q : R} (hq : |q| < 1) (hp : |p| < 1 + q) :
    0 < rate2 p q ∧ rate2 p q < 1 ∧ |q| < rate2 p q ^ 2 ∧ |p| * rate2 p q < rate2 p q ^ 2 + q := by
  unfold rate2
  have m1 := min_le_left (1 - |q|) (1 + q - |p|)
  have m2 := min_le_right (1 - |q|) (1 + q - |p|)
  have m0 : 0 < min (1 - |q|) (1 + q - |p|) := lt_min (by linarith) (by linarith)
  generalize min (1 - |q|) (1 + q - |p|) = m at *
  have := abs_nonneg q
  have := abs_nonneg p
  refine ⟨by linarith, by linarith, by nlinarith, by nlinarith⟩

/-- Solutions of a stable recursion of order two fall geometrically. -/
theorem second_decays {p q : R} (hq : |q| < 1) (hp : |p| < 1 + q) {z : Nat → R} (hz : ∀ n, z (n + 2) = p * z (n + 1) - q * z n) :
    ∃ C, 0 ≤ C ∧ ∀ n, |z n| ≤ C * rate2 p q ^ n := by
  obtain ⟨r0, r1, hq', hp'⟩ := rate2_spec hq hp
  generalize rate2 p q = r at *
  have r2 : 0 < r ^ 2 := by positivity
  -- the recursion of `z n / r ^ n`
  obtain ⟨w, hw⟩ : ∃ w : Nat → R, ∀ n, z n = w n * r ^ n := ⟨fun n => z n / r ^ n, fun n => by field_simp⟩
  obtain ⟨P, hP⟩ : ∃ P, P = p / r := ⟨_, rfl⟩
  obtain ⟨Q, hQ⟩ : ∃ Q, Q = q / r ^ 2 := ⟨_, rfl⟩
  have hQ1 : |Q| < 1 := by rw [hQ, abs_div, abs_of_pos r2, div_lt_one r2]; exact hq'
  have hP1 : |P| < 1 + Q := by
    rw [hP, hQ, abs_div, abs_of_pos r0, div_lt_iff₀ r0]
    have : (1 + q / r ^ 2) * r = (r ^ 2 + q) / r := by field_simp
    rw [this, lt_div_iff₀ r0]; exact hp'
  have hwr : ∀ n, w (n + 2) = P * w (n + 1) - Q * w n := fun n => by
    have := hz n
    rw [hw, hw, hw] at this
    refine mul_right_cancel₀ (b := r ^ (n + 2)) (by positivity) ?_
    rw [this, hP, hQ]; field_simp; ring
  -- a form that does not grow
  have hV : ∀ n, (1 + Q) * (w (n + 1) ^ 2 + w n ^ 2) - 2 * P * w n * w (n + 1) ≤ (1 + Q) * (w 1 ^ 2 + w 0 ^ 2) - 2 * P * w 0 * w 1 := fun n => by
    induction n with
    | zero => exact le_rfl
    | succ n ih =>
      refine le_trans ?_ ih
      have e := hwr n
      have : (1 + Q) * (w (n + 2) ^ 2 + w (n + 1) ^ 2) - 2 * P * w (n + 1) * w (n + 2) =
          (1 + Q) * (w (n + 1) ^ 2 + w n ^ 2) - 2 * P * w n * w (n + 1) - (1 - Q) * (w (n + 2) - w n) ^ 2 := by rw [e]; ring
      rw [show n + 1 + 1 = n + 2 from rfl, this]
      have := mul_nonneg (sub_nonneg.2 (le_of_abs_le hQ1.le)) (sq_nonneg (w (n + 2) - w n))
      linarith
  generalize (1 + Q) * (w 1 ^ 2 + w 0 ^ 2) - 2 * P * w 0 * w 1 = V at hV
  have hd : 0 < 1 + Q - |P| := by linarith
  have hsq : ∀ n, w n ^ 2 ≤ V / (1 + Q - |P|) := fun n => by
    rw [le_div_iff₀ hd]
    refine le_trans ?_ (hV n)
    have h1 := abs_le.1 (le_refl |P|)
    nlinarith [sq_nonneg (w n + w (n + 1)), sq_nonneg (w n - w (n + 1)), sq_nonneg (w (n + 1)), neg_abs_le P, le_abs_self P, abs_nonneg P]
  have hV0 : 0 ≤ V / (1 + Q - |P|) := (sq_nonneg _).trans (hsq 0)
  refine ⟨V / (1 + Q - |P|) + 1, by linarith, fun n => ?_⟩
  rw [hw, abs_mul, abs_of_pos (pow_pos r0 n)]
  refine mul_le_mul_of_nonneg_right ?_ (pow_pos r0 n).le
  have := hsq n
  rw [← sq_abs] at this
  nlinarith [sq_nonneg (|w n| - 1)]

theorem Joins.second {p q : R} (hq : |q| < 1) (hp : |p| < 1 + q) {a b : Nat} {f g : Nat → R} (h : ∀ n, f (a + n + 2) - g (b + n + 2) =
    p * (f (a + n + 1) - g (b + n + 1)) - q * (f (a + n) - g (b + n))) : Joins (rate2 p q) a b f g :=
  second_decays hq hp (z := fun n => f (a + n) - g (b + n)) fun n => by simpa only [Nat.add_assoc] using h n

/-- A rate for recursions that halve every `4 + K` steps. -/
def rateK (K : Nat) : R := 1 - 1 / (2 * ((K : R) + 4))
theorem rateK_pos (K : Nat) : 0 < (rateK K : R) := by
  have : (0 : R) ≤ K := Nat.cast_nonneg K
  unfold rateK
  rw [sub_pos, div_lt_one (by positivity)]; linarith
theorem rateK_lt (K : Nat) : (rateK K : R) < 1 := by
  unfold rateK
  have : (0 : R) < 1 / (2 * ((K : R) + 4)) := by positivity
  linarith
theorem rateK_half (K : Nat) : 1 / 2 ≤ (rateK K : R) ^ (K + 4) := by
  have h0 := rateK_pos (R := R) K
  have := one_add_mul_le_pow (a := (rateK K : R) - 1) (by linarith) (K + 4)
  rw [add_sub_cancel] at this
  refine le_trans (le_of_eq ?_) this
  unfold rateK
  have : (K : R) + 4 ≠ 0 := by positivity
  push_cast
  field_simp
  ring

theorem half_decays {z : Nat → R} (K : Nat)
    (h : ∀ n W, |z n| ≤ W → |z (n + 1)| ≤ W → |z (n + 2)| ≤ W → |z (n + 3)| ≤ W → |z (n + 4 + K)| ≤ W / 2) :
    ∃ C, 0 ≤ C ∧ ∀ n, |z n| ≤ C * rateK K ^ n := by
  have r0 := rateK_pos (R := R) K
  have r1 := rateK_lt (R := R) K
  have rh := rateK_half (R := R) K
  generalize (rateK K : R) = r at *
  have hC : ∀ m : Nat, ∃ C, 0 ≤ C ∧ ∀ n, n < m → |z n| ≤ C * r ^ n := fun m => by
    induction m with
    | zero => exact ⟨0, le_rfl, fun n hn => by omega⟩
    | succ m ih =>
      obtain ⟨C, h0, hC⟩ := ih
      refine ⟨C + |z m| / r ^ m, by positivity, fun n hn => ?_⟩
      rcases Nat.lt_succ_iff_lt_or_eq.1 hn with hn | rfl
      · refine (hC n hn).trans (mul_le_mul_of_nonneg_right ?_ (by positivity))
        have : 0 ≤ |z m| / r ^ m := by positivity
        linarith
      · rw [add_mul, div_mul_cancel₀ _ (by positivity)]
        have : 0 ≤ C * r ^ n := by positivity
        linarith
  obtain ⟨C, h0, hC⟩ := hC (4 + K)
  refine ⟨C, h0, fun n => ?_⟩
  induction n using Nat.strong_induction_on with
  | _ n ih =>
    rcases Nat.lt_or_ge n (4 + K) with hn | hn
    · exact hC n hn
    · obtain ⟨m, rfl⟩ : ∃ m, n = m + 4 + K := ⟨n - (4 + K), by omega⟩
      have mono : ∀ i, C * r ^ (m + i) ≤ C * r ^ m := fun i => mul_le_mul_of_nonneg_left (pow_le_pow_of_le_one r0.le r1.le (by omega)) h0
      refine (h m (C * r ^ m) (ih m (by omega)) ((ih _ (by omega)).trans (mono 1)) ((ih _ (by omega)).trans (mono 2)) ((ih _ (by omega)).trans (mono 3))).trans ?_
      rw [show m + 4 + K = m + (K + 4) by omega, pow_add, ← mul_assoc]
      have : 0 ≤ C * r ^ m := by positivity
      nlinarith

/-- Two outputs of a filter of order four at most. -/
theorem Joins.table {S a1 a2 a3 a4 : Int} (K : Nat) (hS : 0 < S) (hc : Gain.half S a1 a2 a3 a4 K a1 a2 a3 a4 S = true) {a b : Nat} {f g : Nat → R}
    (h : ∀ n, (S : R) * (f (a + n + 5) - g (b + n + 5)) = a1 * (f (a + n + 4) - g (b + n + 4)) + a2 * (f (a + n + 3) - g (b + n + 3)) +
      a3 * (f (a + n + 2) - g (b + n + 2)) + a4 * (f (a + n + 1) - g (b + n + 1))) : Joins (rateK K) a b f g := by
  refine Joins.of_step (rateK_pos K) (half_decays K (z := fun n => f (a + 1 + n) - g (b + 1 + n)) fun n W g0 g1 g2 g3 => ?_)
  have hz : ∀ n, (S : R) * (fun n => f (a + 1 + n) - g (b + 1 + n)) (n + 4) = a1 * (fun n => f (a + 1 + n) - g (b + 1 + n)) (n + 3) +
      a2 * (fun n => f (a + 1 + n) - g (b + 1 + n)) (n + 2) + a3 * (fun n => f (a + 1 + n) - g (b + 1 + n)) (n + 1) + a4 * (fun n => f (a + 1 + n) - g (b + 1 + n)) n := fun n => by
    have := h n
    have e : ∀ a k : Nat, a + 1 + (n + k) = a + n + (k + 1) := fun a k => by omega
    simp only [e, show ∀ a, a + 1 + n = a + n + 1 from fun a => by omega]
    exact this
  have st : Gain.StepAt (fun n => f (a + 1 + n) - g (b + 1 + n)) S (0 : R) 0 a1 a2 a3 a4 1 S := by
    refine ⟨hS, fun n => ?_⟩
    rw [Nat.add_zero, hz n]; simp
  have := Gain.half_sound hS hz K 0 _ _ _ _ _ _ hc st n W g0 g1 g2 g3
  rwa [Nat.zero_add] at this

end Verif.Memory
