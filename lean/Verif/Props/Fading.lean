/- C78: indicators that forget old bars gradually, and those that never do. -/
import Verif.Props.Memory
import Verif.Props.Gain
import Verif.Proof.Fading

namespace Verif
open Spec Finset
open Spec (ema wilder)
open Memory
set_option linter.unusedSectionVars false

section
variable {R : Type} [Field R] [LinearOrder R] [IsStrictOrderedRing R] [CMath R]

theorem joins_same {q : R} (hq : 0 < q) {a b : Nat} {x y : Nat → R} (h : ∀ n, x (a + n) = y (b + n)) : Joins q a b x y :=
  Joins.of_eq hq 0 fun n => h n

/-! ### Averages -/
theorem ema_fades (o : Nat → R) (p : Nat) (hc : toInt (o 0) = .ok (p : Int)) (hp : 1 ≤ p) : Fades emaBatch o id :=
  fades (ema_value o p hc hp) (rate (emaCoef p)) (rate_pos _) (rate_lt (emaCoef_pos p) (emaCoef_lt hp)) fun x y a b h =>
    Joins.ema (rate_pos _) (lt_rate (emaCoef_pos p) (emaCoef_lt hp)) (joins_same (rate_pos _) h)
/-- Partial: the start index is computed without overflow. -/
theorem dema_fades_partial (o : Nat → R) (p : Nat) (hc : toInt (o 0) = .ok (p : Int)) (hp : 1 ≤ p) (hb : (p - 1) * 2 ≤ 2147483647) : Fades demaBatch o id :=
  fades (dema_value_partial o p hc hp hb) (rate (emaCoef p)) (rate_pos _) (rate_lt (emaCoef_pos p) (emaCoef_lt hp)) fun x y a b h => by
    have hq := rate_pos (emaCoef p : R)
    have hq1 := rate_lt (emaCoef_pos p) (emaCoef_lt (R := R) hp)
    have e1 := Joins.ema hq (lt_rate (emaCoef_pos p) (emaCoef_lt hp)) (joins_same hq h)
    have e2 := Joins.ema hq (lt_rate (emaCoef_pos p) (emaCoef_lt hp)) (e1.later hq hq1 (p - 1))
    exact ((e1.later hq hq1 _).mul 2).sub (e2.later hq hq1 _)
/-- Partial: the start index is computed without overflow. -/
theorem tema_fades_partial (o : Nat → R) (p : Nat) (hc : toInt (o 0) = .ok (p : Int)) (hp : 1 ≤ p) (hb : (p - 1) * 3 ≤ 2147483647) : Fades temaBatch o id :=
  fades (tema_value_partial o p hc hp hb) (rate (emaCoef p)) (rate_pos _) (rate_lt (emaCoef_pos p) (emaCoef_lt hp)) fun x y a b h => by
    have hq := rate_pos (emaCoef p : R)
    have hq1 := rate_lt (emaCoef_pos p) (emaCoef_lt (R := R) hp)
    have e1 := Joins.ema hq (lt_rate (emaCoef_pos p) (emaCoef_lt hp)) (joins_same hq h)
    have e2 := Joins.ema hq (lt_rate (emaCoef_pos p) (emaCoef_lt hp)) (e1.later hq hq1 (p - 1))
    have e3 := Joins.ema hq (lt_rate (emaCoef_pos p) (emaCoef_lt hp)) (e2.later hq hq1 (p - 1))
    exact (((e1.later hq hq1 _).mul 3).sub ((e2.later hq hq1 _).mul 3)).add (e3.later hq hq1 _)
/-- Partial: periods 1 and 2 are out of bounds. -/
theorem zlema_fades_partial (o : Nat → R) (p : Nat) (hc : toInt (o 0) = .ok (p : Int)) (hp : 3 ≤ p) : Fades zlemaBatch o id :=
  fades (zlema_value_partial o p hc hp) (rate (emaCoef p)) (rate_pos _) (rate_lt (emaCoef_pos p) (emaCoef_lt (by omega))) fun x y a b h =>
    Joins.ema (rate_pos _) (lt_rate (emaCoef_pos p) (emaCoef_lt (by omega))) (Joins.of_eq (rate_pos _) 1 fun n => by
      rw [if_neg (by omega), if_neg (by omega), show a + 1 + n - 1 + (p - 1) / 2 = a + (n + (p - 1) / 2) by omega,
        show b + 1 + n - 1 + (p - 1) / 2 = b + (n + (p - 1) / 2) by omega, show a + 1 + n - 1 = a + n by omega, show b + 1 + n - 1 = b + n by omega, h, h])
theorem wilderCoef {p : Nat} (hp : 1 ≤ p) : 0 < 1 / (p : R) ∧ 1 / (p : R) < 2 := by
  have h1 : (1 : R) ≤ p := by exact_mod_cast hp
  refine ⟨by positivity, ?_⟩
  rw [div_lt_iff₀ (by positivity)]; linarith
theorem wilders_fades (o : Nat → R) (p : Nat) (hc : toInt (o 0) = .ok (p : Int)) (hp : 1 ≤ p) : Fades wildersBatch o id := by
  obtain ⟨h0, h2⟩ := wilderCoef (R := R) hp
  exact fades (wilders_value o p hc hp) (rate (1 / (p : R))) (rate_pos _) (rate_lt h0 h2) fun x y a b h =>
    Joins.wilder (rate_pos _) (rate_lt h0 h2) (lt_rate h0 h2) (joins_same (rate_pos _) h)
theorem realCoef {v : R} (h : 1 ≤ v) : 0 < 2 / (v + 1) ∧ 2 / (v + 1) < 2 := by
  refine ⟨by positivity, ?_⟩
  rw [div_lt_iff₀ (by positivity)]; linarith
theorem Memory.Joins.gdema {q k w : R} {a b : Nat} {f g : Nat → R} (hq : 0 < q) (hk : |1 - k| < q) (h : Joins q a b f g) :
    Joins q a b (gdema k w f) (gdema k w g) := by
  have e1 := Joins.ema hq hk h
  have e2 := Joins.ema hq hk e1
  exact (e1.mul _).sub (e2.mul _)
theorem t3_fades (o : Nat → R) (h0 : 1 ≤ o 0) (h1 : 0 ≤ o 1) : Fades t3Batch o id := by
  obtain ⟨k0, k2⟩ := realCoef h0
  have hk := lt_rate k0 k2
  exact fades (t3_value o h0 h1) (rate (2 / (o 0 + 1))) (rate_pos _) (rate_lt k0 k2) fun x y a b h =>
    Joins.gdema (rate_pos _) hk (Joins.gdema (rate_pos _) hk (Joins.gdema (rate_pos _) hk (joins_same (rate_pos _) h)))
theorem ehma_fades [LawfulSqrt R] (o : Nat → R) (p : Nat) (hc : toInt (o 0) = .ok (p : Int)) (hp : 1 ≤ p) : Fades ehmaBatch o id := by
  have h1 : (1 : R) ≤ p := by exact_mod_cast hp
  have c1 : 0 < 2 / ((p : R) / 2 + 1) ∧ 2 / ((p : R) / 2 + 1) < 2 := ⟨by positivity, by rw [div_lt_iff₀ (by positivity)]; linarith⟩
  have c2 := realCoef h1
  have s0 : 0 < CMath.sqrt (p : R) := by
    refine lt_of_le_of_ne (LawfulSqrt.sqrt_nonneg _ (by positivity)) fun e => ?_
    have := LawfulSqrt.sqrt_sq (p : R) (by positivity)
    rw [← e, zero_mul] at this
    linarith
  have c3 : 0 < 2 / (CMath.sqrt (p : R) + 1) ∧ 2 / (CMath.sqrt (p : R) + 1) < 2 := ⟨by positivity, by rw [div_lt_iff₀ (by positivity)]; linarith⟩
  have hq : 0 < max (max (rate (2 / ((p : R) / 2 + 1))) (rate (2 / ((p : R) + 1)))) (rate (2 / (CMath.sqrt (p : R) + 1))) :=
    lt_max_of_lt_right (rate_pos _)
  refine fades (ehma_value o p hc hp) _ hq (max_lt (max_lt (rate_lt c1.1 c1.2) (rate_lt c2.1 c2.2)) (rate_lt c3.1 c3.2)) fun x y a b h => ?_
  refine Joins.ema hq (lt_max_of_lt_right (lt_rate c3.1 c3.2)) ?_
  exact ((Joins.ema hq (lt_max_of_lt_left (lt_max_of_lt_left (lt_rate c1.1 c1.2))) (joins_same hq h)).mul 2).sub
    (Joins.ema hq (lt_max_of_lt_left (lt_max_of_lt_right (lt_rate c2.1 c2.2))) (joins_same hq h))
theorem kama_fades [LawfulAbs R] [LawfulPow R] (o : Nat → R) (p : Nat) (hc : toInt (o 0) = .ok (p : Int)) (hp : 1 ≤ p) : Fades kamaBatch o id := by
  have hq : (0 : R) < 1 - (2 / 31) ^ 2 := by norm_num
  refine fades (kama_value o p hc hp) (1 - (2 / 31) ^ 2) hq (by norm_num) fun x y a b h => ?_
  refine ⟨|Spec.kama p x a - Spec.kama p y b|, abs_nonneg _, fun n => ?_⟩
  induction n with
  | zero => simp
  | succ n ih =>
    have e : effRatio p x (a + n) = effRatio p y (b + n) := by
      simp only [effRatio, Nat.add_assoc, h]
    have e2 : x (a + n + p) = y (b + n + p) := by simp only [Nat.add_assoc, h]
    obtain ⟨w0, w1⟩ := effRatio_bounds p y (b + n)
    simp only [id] at ih ⊢
    rw [← Nat.add_assoc, ← Nat.add_assoc, Spec.kama, Spec.kama, e, e2]
    set w := (effRatio p y (b + n) * (2 / 3 - 2 / 31) + 2 / 31) ^ 2 with hw
    have k0 : (2 / 31 : R) ^ 2 ≤ w := by
      have : (2 / 31 : R) ≤ effRatio p y (b + n) * (2 / 3 - 2 / 31) + 2 / 31 := by nlinarith
      exact pow_le_pow_left₀ (by norm_num) this 2
    have k1 : w ≤ 1 := by
      have h1 : effRatio p y (b + n) * (2 / 3 - 2 / 31) + 2 / 31 ≤ 1 := by nlinarith
      have h2 : 0 ≤ effRatio p y (b + n) * (2 / 3 - 2 / 31) + 2 / 31 := by nlinarith
      exact pow_le_one₀ h2 h1
    rw [show Spec.kama p x (a + n) + w * (y (b + n + p) - Spec.kama p x (a + n)) - (Spec.kama p y (b + n) + w * (y (b + n + p) - Spec.kama p y (b + n))) =
      (1 - w) * (Spec.kama p x (a + n) - Spec.kama p y (b + n)) by ring, abs_mul, abs_of_nonneg (by linarith), pow_succ, ← mul_assoc, mul_comm]
    exact mul_le_mul ih (by linarith) (by linarith) (by positivity)
theorem edecay_fades (o : Nat → R) (p : Nat) (hc : toInt (o 0) = .ok (p : Int)) (hp : 1 ≤ p) : Fades edecayBatch o id := by
  obtain ⟨h0, h2⟩ := wilderCoef (R := R) hp
  have h1 : 0 ≤ 1 - 1 / (p : R) := by
    have : (1 : R) ≤ p := by exact_mod_cast hp
    rw [sub_nonneg, div_le_one (by positivity)]; exact this
  refine fades (edecay_run o p hc) (rate (1 / (p : R))) (rate_pos _) (rate_lt h0 h2) fun x y a b h => ?_
  refine ⟨|edecayVal x (1 - 1 / (p : R)) a - edecayVal y (1 - 1 / (p : R)) b|, abs_nonneg _, fun n => ?_⟩
  have step : ∀ (x : Nat → R) n, edecayVal x (1 - 1 / (p : R)) (n + 1) = max (x (n + 1)) (edecayVal x (1 - 1 / (p : R)) n * (1 - 1 / (p : R))) := fun x n => by
    rw [edecayVal]
    split <;> rename_i hlt
    · rw [max_eq_left hlt.le]
    · rw [max_eq_right (not_lt.1 hlt)]
  simp only [id, Int.cast_one, Int.cast_natCast] at *
  induction n with
  | zero => simp
  | succ n ih =>
    rw [← Nat.add_assoc, ← Nat.add_assoc, step, step, Nat.add_assoc, Nat.add_assoc, h]
    have lip : ∀ c u v : R, |max c u - max c v| ≤ |u - v| := fun c u v => by
      rcases le_total c u with hu | hu <;> rcases le_total c v with hv | hv
      · rw [max_eq_right hu, max_eq_right hv]
      · rw [max_eq_right hu, max_eq_left hv, abs_of_nonneg (by linarith), abs_of_nonneg (by linarith)]; linarith
      · rw [max_eq_left hu, max_eq_right hv, abs_of_nonpos (by linarith), abs_of_nonpos (by linarith)]; linarith
      · rw [max_eq_left hu, max_eq_left hv, sub_self, abs_zero]; exact abs_nonneg _
    refine (lip _ _ _).trans ?_
    rw [← sub_mul, abs_mul, pow_succ, ← mul_assoc]
    exact mul_le_mul ih (lt_rate h0 h2).le (abs_nonneg _) (mul_nonneg (abs_nonneg _) (pow_pos (rate_pos _) _).le)

/-! ### Differences of averages -/
theorem apo_fades (o : Nat → R) (p q : Nat) (hc : toInt (o 0) = .ok (p : Int)) (hc1 : toInt (o 1) = .ok (q : Int))
    (hp : 1 ≤ p) (hq : 2 ≤ q) (hpq : p ≤ q) : Fades apoBatch o id := by
  have h0 : 0 < max (rate (emaCoef p : R)) (rate (emaCoef q)) := lt_max_of_lt_left (rate_pos _)
  have h1 : max (rate (emaCoef p : R)) (rate (emaCoef q)) < 1 := max_lt (rate_lt (emaCoef_pos p) (emaCoef_lt hp)) (rate_lt (emaCoef_pos q) (emaCoef_lt (by omega)))
  exact fades (apo_value o p q hc hc1 hp hq hpq) _ h0 h1 fun x y a b h =>
    ((Joins.ema h0 (lt_max_of_lt_left (lt_rate (emaCoef_pos p) (emaCoef_lt hp))) (joins_same h0 h)).sub
      (Joins.ema h0 (lt_max_of_lt_right (lt_rate (emaCoef_pos q) (emaCoef_lt (by omega)))) (joins_same h0 h))).later h0 h1 1
/-- Each of the three outputs. -/
theorem macd_fades (o : Nat → R) (p q r : Nat) (hc : toInt (o 0) = .ok (p : Int)) (hc1 : toInt (o 1) = .ok (q : Int)) (hc2 : toInt (o 2) = .ok (r : Int))
    (hp : 1 ≤ p) (hq : 2 ≤ q) (hpq : p ≤ q) (hr : 1 ≤ r) :
    Fades macdBatch o (·.macd) ∧ Fades macdBatch o (·.signal) ∧ Fades macdBatch o (·.hist) := by
  obtain ⟨⟨a0, a2⟩, b0, b2⟩ : (0 < (macdCoef p q : R × R).1 ∧ (macdCoef p q : R × R).1 < 2) ∧ (0 < (macdCoef p q : R × R).2 ∧ (macdCoef p q : R × R).2 < 2) := by
    unfold macdCoef
    split
    · norm_num
    · exact ⟨⟨emaCoef_pos p, emaCoef_lt hp⟩, emaCoef_pos q, emaCoef_lt (by omega)⟩
  have h0 : 0 < max (max (rate (macdCoef p q : R × R).1) (rate (macdCoef p q).2)) (rate (emaCoef r)) := lt_max_of_lt_right (rate_pos _)
  have h1 : max (max (rate (macdCoef p q : R × R).1) (rate (macdCoef p q).2)) (rate (emaCoef r)) < 1 :=
    max_lt (max_lt (rate_lt a0 a2) (rate_lt b0 b2)) (rate_lt (emaCoef_pos r) (emaCoef_lt hr))
  have line {x y : Nat → R} {a b : Nat} (h : ∀ n, x (a + n) = y (b + n)) :=
    (Joins.ema h0 (lt_max_of_lt_left (lt_max_of_lt_left (lt_rate a0 a2))) (joins_same h0 h)).sub
      (Joins.ema h0 (lt_max_of_lt_left (lt_max_of_lt_right (lt_rate b0 b2))) (joins_same h0 h))
  have sig {x y : Nat → R} {a b : Nat} (h : ∀ n, x (a + n) = y (b + n)) :=
    Joins.ema h0 (lt_max_of_lt_right (lt_rate (emaCoef_pos r) (emaCoef_lt hr))) ((line h).later h0 h1 (q - 1))
  have v := macd_value o p q r hc hc1 hc2 hp hq hpq hr
  exact ⟨fades v _ h0 h1 fun x y a b h => (line h).later h0 h1 _, fades v _ h0 h1 fun x y a b h => sig h,
    fades v _ h0 h1 fun x y a b h => ((line h).later h0 h1 _).sub (sig h)⟩
/-- The sums themselves never forget, their oscillator does. -/
theorem adosc_fades (o : Nat → R) (s p : Nat) (hs : toInt (o 0) = .ok (s : Int)) (hc : toInt (o 1) = .ok (p : Int)) (h1 : 1 ≤ s) (h2 : s ≤ p) :
    Fades adoscBatch o id := by
  have q0 : 0 < max (rate (emaCoef s : R)) (rate (emaCoef p)) := lt_max_of_lt_left (rate_pos _)
  have q1 : max (rate (emaCoef s : R)) (rate (emaCoef p)) < 1 := max_lt (rate_lt (emaCoef_pos s) (emaCoef_lt h1)) (rate_lt (emaCoef_pos p) (emaCoef_lt (by omega)))
  refine fades (adosc_value o s p hs hc h1 h2) _ q0 q1 fun x y a b h => ?_
  have e : Joins _ a b (adLine x) (fun i => adLine y i + (adLine x a - adLine y b)) := Joins.of_eq q0 0 fun n => by
    induction n with
    | zero => simp
    | succ n ih =>
      have step : ∀ (x : Nat → HLCV R) n, adLine x (n + 1) = adLine x n + closeLocation (x (n + 1)) * (x (n + 1)).volume := fun x n => by
        rw [adLine, sum_range_succ]; rfl
      simp only [Nat.add_zero] at ih ⊢
      rw [← Nat.add_assoc, ← Nat.add_assoc, step, step, ih, Nat.add_assoc, Nat.add_assoc, h]; ring
  have f1 := Joins.ema q0 (lt_max_of_lt_left (lt_rate (emaCoef_pos s) (emaCoef_lt h1))) e
  have f2 := Joins.ema q0 (lt_max_of_lt_right (lt_rate (emaCoef_pos p) (emaCoef_lt (by omega)))) e
  have g (k : R) := Units.ema_aff (k := k) (c := 1) (a := adLine x a - adLine y b) (x := adLine y) (x' := fun i => adLine y i + (adLine x a - adLine y b)) fun i => by ring
  have := (f1.sub f2).later q0 q1 (p - 1)
  simpa only [g, one_mul, add_sub_add_right_eq_sub, id] using this
theorem fi_fades (o : Nat → R) (h : 1 ≤ o 0) : Fades fiBatch o id := by
  obtain ⟨k0, k2⟩ := realCoef h
  exact fades (fi_value o h) (rate (2 / (o 0 + 1))) (rate_pos _) (rate_lt k0 k2) fun x y a b h =>
    Joins.ema (rate_pos _) (lt_rate k0 k2) (joins_same (rate_pos _) fun n => by simp only [force, Nat.add_assoc, h])

/-! ### True range and directional movement -/
theorem trueRange_joins {q : R} (hq : 0 < q) {a b : Nat} {x y : Nat → HLC R} (h : ∀ n, x (a + n) = y (b + n)) :
    Joins q a b (Spec.trueRange x) (Spec.trueRange y) := Joins.of_eq hq 1 fun n => by
  simp only [Spec.trueRange]
  rw [if_neg (by omega), if_neg (by omega), show a + 1 + n - 1 = a + n by omega, show b + 1 + n - 1 = b + n by omega, Nat.add_assoc a, Nat.add_assoc b, h, h]
theorem tr_fades [LawfulAbs R] (o : Nat → R) : Fades trBatch o id :=
  fades (tr_value o) (1 / 2) (by norm_num) (by norm_num) fun _ _ _ _ h => trueRange_joins (by norm_num) h
theorem atr_fades [LawfulAbs R] (o : Nat → R) (p : Nat) (hc : toInt (o 0) = .ok (p : Int)) (hp : 1 ≤ p) : Fades atrBatch o id := by
  obtain ⟨h0, h2⟩ := wilderCoef (R := R) hp
  exact fades (atr_value o p hc hp) (rate (1 / (p : R))) (rate_pos _) (rate_lt h0 h2) fun x y a b h =>
    Joins.wilder (rate_pos _) (rate_lt h0 h2) (lt_rate h0 h2) (trueRange_joins (rate_pos _) h)
theorem kc_fades (o : Nat → R) (h0 : 1 ≤ o 0) (h1 : 0 ≤ o 1) :
    Fades kcBatch o (·.lower) (fun r => r.low ≤ r.high) ∧ Fades kcBatch o (·.middle) (fun r => r.low ≤ r.high) ∧
      Fades kcBatch o (·.upper) (fun r => r.low ≤ r.high) := by
  obtain ⟨k0, k2⟩ := realCoef h0
  have hq := rate_pos (2 / (o 0 + 1))
  have hq1 := rate_lt k0 k2
  have m {x y : Nat → HLC R} {a b : Nat} (h : ∀ n, x (a + n) = y (b + n)) :=
    Joins.ema hq (lt_rate k0 k2) (joins_same (x := fun k => (x k).close) (y := fun k => (y k).close) hq fun n => congrArg HLC.close (h n))
  have t {x y : Nat → HLC R} {a b : Nat} (h : ∀ n, x (a + n) = y (b + n)) := Joins.ema hq (lt_rate k0 k2) (trueRange_joins hq h)
  have v := kc_value o h0 h1
  exact ⟨fadesRows (fun r : HLC R => r.low ≤ r.high) ⟨0, 0, 0⟩ le_rfl (s := 0) v _ hq hq1 fun x y a b h => (m h).sub ((t h).mul (o 1)), fadesRows (fun r : HLC R => r.low ≤ r.high) ⟨0, 0, 0⟩ le_rfl (s := 0) v _ hq hq1 fun x y a b h => m h,
    fadesRows (fun r : HLC R => r.low ≤ r.high) ⟨0, 0, 0⟩ le_rfl (s := 0) v _ hq hq1 fun x y a b h => (m h).add ((t h).mul (o 1))⟩
/-- Partial: period 1 is out of bounds. -/
theorem ce_fades_partial [LawfulTrunc R] [LawfulRound R] (o : Nat → R) (p : Nat) (hc : toInt (o 0) = .ok (p : Int)) (hp : 2 ≤ p) :
    Fades ceBatch o (·.high) (fun r => r.low ≤ r.high) ∧ Fades ceBatch o (·.low) (fun r => r.low ≤ r.high) := by
  obtain ⟨h0, h2⟩ := wilderCoef (R := R) (p := p) (by omega)
  have hq := rate_pos (1 / (p : R))
  have hq1 := rate_lt h0 h2
  have t {x y : Nat → HLC R} {a b : Nat} (h : ∀ n, x (a + n) = y (b + n)) := Joins.wilder (p := p) hq hq1 (lt_rate h0 h2) (trueRange_joins hq h)
  have v := ce_value_partial o p hc hp
  exact ⟨fadesRows (fun r : HLC R => r.low ≤ r.high) ⟨0, 0, 0⟩ le_rfl v _ hq hq1 fun x y a b h => (joins_same hq fun n => by simp only [winMax, Nat.add_assoc, h]).sub ((t h).mul (o 1)),
    fadesRows (fun r : HLC R => r.low ≤ r.high) ⟨0, 0, 0⟩ le_rfl v _ hq hq1 fun x y a b h => (joins_same hq fun n => by simp only [winMin, Nat.add_assoc, h]).add ((t h).mul (o 1))⟩
theorem wilderSum_joins {q : R} {p : Nat} (hq : 0 < q) (hq1 : q < 1) (hk : |1 - 1 / (p : R)| < q) {a b : Nat} {f g : Nat → R} (h : Joins q a b f g) :
    Joins q a b (wilderSum p f) (wilderSum p g) := by
  have step : ∀ (d : Nat → R) n, wilderSum p d (n + 1) = (1 - 1 / (p : R)) * wilderSum p d n + 1 * (fun i => d (i - 1 + (p - 1))) (n + 1) := fun d n => by
    rw [wilderSum]
    simp only [Nat.add_sub_cancel]
    ring
  refine Joins.recursion (f := fun i => f (i - 1 + (p - 1))) (g := fun i => g (i - 1 + (p - 1))) hq hk (step f) (step g) (Joins.of_step hq ?_)
  obtain ⟨C, hC, h⟩ := h.later hq hq1 (p - 1)
  refine ⟨C, hC, fun n => ?_⟩
  have := h n
  beta_reduce at this ⊢
  rwa [show a + 1 + n - 1 = a + n by omega, show b + 1 + n - 1 = b + n by omega]
theorem dm_fades (o : Nat → R) (p : Nat) (hc : toInt (o 0) = .ok (p : Int)) (hp : 1 ≤ p) : Fades dmBatch o (·.plus) ∧ Fades dmBatch o (·.minus) := by
  obtain ⟨h0, h2⟩ := wilderCoef (R := R) hp
  exact ⟨fades (dm_value o p hc hp) (rate (1 / (p : R))) (rate_pos _) (rate_lt h0 h2) fun x y a b h =>
      wilderSum_joins (rate_pos _) (rate_lt h0 h2) (lt_rate h0 h2) (joins_same (rate_pos _) fun n => by simp only [plusDM, upMove, downMove, Nat.add_assoc, h]),
    fades (dm_value o p hc hp) (rate (1 / (p : R))) (rate_pos _) (rate_lt h0 h2) fun x y a b h =>
      wilderSum_joins (rate_pos _) (rate_lt h0 h2) (lt_rate h0 h2) (joins_same (rate_pos _) fun n => by simp only [minusDM, upMove, downMove, Nat.add_assoc, h])⟩

/-! ### Recursive filters -/
theorem gf1_fades (o : Nat → R) (q : Nat) (h1 : 1 ≤ q) (h2 : q ≤ 20) (hc : toInt (o 0) = .ok ((2 * q : Nat) : Int)) : Fades gf1Batch o id := by
  have e := gf1_sum (R := R) q h1 h2
  have hb := coef_pos (R := R) gf1B0 (by decide) q h1 h2
  have ha := coef_pos (R := R) gf1A1 (by decide) q h1 h2
  have step : ∀ (x : Nat → R) n, iir [coef gf1B0 q] [coef gf1A1 q] x (n + 1) = coef gf1A1 q * iir [coef gf1B0 q] [coef gf1A1 q] x n + coef gf1B0 q * x (n + 1) := fun x n => by
    simp [iir, dot, past, iirPast]; ring
  exact fades (gf1_value o q h1 h2 hc) (rate (coef gf1B0 q)) (rate_pos _) (rate_lt hb (by linarith)) fun x y a b h =>
    Joins.recursion (rate_pos _) (by rw [show (coef gf1A1 q : R) = 1 - coef gf1B0 q by linarith]; exact lt_rate hb (by linarith)) (step x) (step y) (joins_same (rate_pos _) h)
/-- gf3 is the same filter for every period. -/
theorem gf3_fades (o : Nat → R) (q : Nat) (h1 : 1 ≤ q) (h2 : q ≤ 20) (hc : toInt (o 0) = .ok ((2 * q : Nat) : Int)) : Fades gf3Batch o id := by
  have step : ∀ (x : Nat → R) n, iir [1 / 4] [1 / 4, 1 / 4, 1 / 4] x (n + 3) = (x (n + 3) + iir [1 / 4] [1 / 4, 1 / 4, 1 / 4] x (n + 2) +
      iir [1 / 4] [1 / 4, 1 / 4, 1 / 4] x (n + 1) + iir [1 / 4] [1 / 4, 1 / 4, 1 / 4] x n) / 4 := fun x n => by
    simp [iir, dot, past, iirPast]; ring
  refine fades (gf3_ignores_period o q h1 h2 hc) (19 / 20) (by norm_num) (by norm_num) fun x y a b h => ?_
  generalize hf : iir [1 / 4] [1 / 4, 1 / 4, 1 / 4] x = f
  generalize hg : iir [1 / 4] [1 / 4, 1 / 4, 1 / 4] y = g
  have d : ∀ n, f (a + (n + 3)) - g (b + (n + 3)) = ((f (a + (n + 2)) - g (b + (n + 2))) + (f (a + (n + 1)) - g (b + (n + 1))) + (f (a + n) - g (b + n))) / 4 := fun n => by
    have e1 := step x (a + n)
    have e2 := step y (b + n)
    rw [hf] at e1
    rw [hg] at e2
    simp only [Nat.add_assoc, h] at e1 e2 ⊢
    rw [e1, e2]; ring
  have key : ∀ n, |f (a + n) - g (b + n)| ≤ 2 * (|f a - g b| + |f (a + 1) - g (b + 1)| + |f (a + 2) - g (b + 2)|) * (19 / 20) ^ n := fun n => by
    induction n using Nat.strong_induction_on with
    | _ n ih =>
      have p0 := abs_nonneg (f a - g b)
      have p1 := abs_nonneg (f (a + 1) - g (b + 1))
      have p2 := abs_nonneg (f (a + 2) - g (b + 2))
      match n, ih with
      | 0, _ => simp only [Nat.add_zero, pow_zero]; linarith
      | 1, _ => simp only [pow_one]; linarith
      | 2, _ => norm_num; linarith
      | n + 3, ih =>
        have i0 := abs_le.1 (ih n (by omega))
        have i1 := abs_le.1 (ih (n + 1) (by omega))
        have i2 := abs_le.1 (ih (n + 2) (by omega))
        rw [d]
        have hp : (0 : R) ≤ 2 * (|f a - g b| + |f (a + 1) - g (b + 1)| + |f (a + 2) - g (b + 2)|) * (19 / 20) ^ n := by positivity
        rw [pow_add] at i1 i2 ⊢
        rw [← mul_assoc] at i1 i2 ⊢
        set K := 2 * (|f a - g b| + |f (a + 1) - g (b + 1)| + |f (a + 2) - g (b + 2)|) * (19 / 20 : R) ^ n
        norm_num at i1 i2 ⊢
        exact abs_le.2 ⟨by linarith [i0.1, i1.1, i2.1], by linarith [i0.2, i1.2, i2.2]⟩
  exact ⟨_, by positivity, key⟩
/-- Partial: damping factors below 1 (from 1 on the filter is unstable). -/
theorem lf_fades_partial (o : Nat → R) (h0 : 0 ≤ o 0) (h1 : o 0 < 1) : Fades lfBatch o id := by
  have hq : 0 < (1 + o 0) / 2 := by positivity
  have hq1 : (1 + o 0) / 2 < 1 := by linarith
  have hk : |o 0| < (1 + o 0) / 2 := by rw [abs_of_nonneg h0]; linarith
  have lag {a b : Nat} {f g : Nat → R} (h : Joins ((1 + o 0) / 2) a b f g) : Joins ((1 + o 0) / 2) a b (iir [1 - o 0] [o 0] f) (iir [1 - o 0] [o 0] g) :=
    Joins.recursion (r := o 0) (k := 1 - o 0) hq hk (fun n => by rw [iir_lag]; ring) (fun n => by rw [iir_lag]; ring) h
  have sec {a b : Nat} {f g : Nat → R} (h : Joins ((1 + o 0) / 2) a b f g) : Joins ((1 + o 0) / 2) a b (iir [-o 0, 1] [o 0] f) (iir [-o 0, 1] [o 0] g) := by
    refine Joins.recursion (r := o 0) (k := 1) (f := fun i => -o 0 * f i + f (i - 1)) (g := fun i => -o 0 * g i + g (i - 1)) hq hk
      (fun n => by rw [iir_sec]; simp only [Nat.add_sub_cancel]; ring) (fun n => by rw [iir_sec]; simp only [Nat.add_sub_cancel]; ring) ?_
    refine (h.mul (-o 0)).add (Joins.of_step hq ?_)
    obtain ⟨C, hC, h⟩ := h
    refine ⟨C, hC, fun n => ?_⟩
    have := h n
    beta_reduce
    rwa [show a + 1 + n - 1 = a + n by omega, show b + 1 + n - 1 = b + n by omega]
  refine fades (lf_value o h0) _ hq hq1 fun x y a b h => ?_
  have e0 := lag (joins_same hq h)
  have e1 := sec e0
  have e2 := sec e1
  have e3 := sec e2
  have := ((((e0.add (e1.mul 2)).add (e2.mul 2)).add e3).mul (1 / 6))
  simpa only [id, one_div_mul_eq_div] using this

/-! ### Differences that stay for ever -/
theorem last_pre {ω : Type} (w : Nat → ω) (N : Nat) : (pre w (N + 1)).getLast? = some (w N) := by simp [pre, List.range_succ]
theorem flat_pre {α : Type} (r : α) (z : α) (n : Nat) : [r] ++ pre (fun _ => z) (n + 1) = pre (fun i => if i = 0 then r else z) (n + 2) := by
  refine List.ext_getElem (by simp [pre]) fun i h1 h2 => ?_
  cases i <;> simp [pre]
/-- Two histories of one bar each, then one and the same bar for ever. -/
theorem not_fades_flat [Archimedean R] {ρ ω : Type} {batch : (Nat → R) → List ρ → M (Ret × List ω)} {o : Nat → R} {part : ω → R} {s : Nat} {val : (Nat → ρ) → Nat → ω}
    (hc : Computes batch o s val) (r t z : ρ) {d : R} (hd : 0 < d)
    (h : ∀ n, d ≤ |part (val (fun i => if i = 0 then r else z) (n + 1)) - part (val (fun i => if i = 0 then t else z) (n + 1))|) : ¬ Fades batch o part :=
  not_fades [r] [t] (fun _ => z) (fun _ _ => trivial) (fun _ _ => trivial) (fun _ => trivial) s hd fun n hn => by
    refine ⟨_, _, _, _, (congrArg _ (flat_pre r z n)).trans (hc _ _), (congrArg _ (flat_pre t z n)).trans (hc _ _), ?_, ?_, h (n - s)⟩
    · rw [show n + 2 - s = n - s + 1 + 1 by omega, last_pre]
    · rw [show n + 2 - s = n - s + 1 + 1 by omega, last_pre]
variable [Archimedean R]
/-- After one rise, or one fall, and no move since then, rsi stays at 100, or at 0. -/
theorem rsi_fades_violates (o : Nat → R) (p : Nat) (hc : toInt (o 0) = .ok (p : Int)) (hp : 2 ≤ p) : ¬ Fades rsiBatch o id :=
  not_fades_flat (rsi_value o p hc (by omega)) 0 2 1 (d := 100) (by norm_num) fun n => by
    have g1 : gain (fun i : Nat => if i = 0 then (0 : R) else 1) = fun k => if k = 0 then 1 else 0 := funext fun k => by cases k <;> simp [gain]
    have l1 : loss (fun i : Nat => if i = 0 then (0 : R) else 1) = fun _ => 0 := funext fun k => by cases k <;> simp [loss]
    have g2 : gain (fun i : Nat => if i = 0 then (2 : R) else 1) = fun _ => 0 := funext fun k => by cases k <;> simp [gain]
    have z : ∀ n, wilder p (fun _ => (0 : R)) n = 0 := fun n => by
      have := Units.wilder_mul (c := (0 : R)) (x := fun _ => 0) (x' := fun _ => 0) (fun i => by simp) p n
      simpa using this
    have hp' : (2 : R) ≤ p := by exact_mod_cast hp
    have pos : ∀ n, 0 < wilder p (fun k : Nat => if k = 0 then (1 : R) else 0) n := fun n => by
      unfold wilder
      induction n with
      | zero =>
        simp only [ema, if_pos]
        rw [winMean, winSum]
        have : ∑ k ∈ range p, (if 0 + k = 0 then (1 : R) else 0) = 1 := by
          rw [sum_eq_single 0]
          · simp
          · intro b _ hb; simp [hb]
          · intro h; simp at h; omega
        rw [this]; positivity
      | succ n ih =>
        rw [ema]
        beta_reduce
        rw [if_neg (by omega), if_neg (by omega)]
        have : 1 / (p : R) ≤ 1 / 2 := by
          rw [div_le_div_iff₀ (by linarith) (by norm_num)]; linarith
        nlinarith
    simp only [g1, l1, g2, z, add_zero, if_neg (pos _).ne', div_self (pos _).ne', id, if_true]
    norm_num
theorem obv_fades_violates (o : Nat → R) : ¬ Fades obvBatch o id :=
  not_fades_flat (s := 0) (obv_value o) ⟨0, 0⟩ ⟨2, 0⟩ ⟨1, 1⟩ (d := 1) one_pos fun n => by
    simp only [sum_range_succ', signedVolume, Nat.succ_ne_zero, if_false, if_true, lt_irrefl, sum_const_zero, id]
    norm_num
theorem ad_fades_violates (o : Nat → R) : ¬ Fades adBatch o id :=
  not_fades_flat (ad_value o) ⟨1, 0, 1, 1⟩ ⟨1, 0, 0, 1⟩ ⟨1, 0, 0, 1⟩ (d := 1) one_pos fun n => by
    simp only [adLine, sum_range_succ', Nat.succ_ne_zero, if_false, if_true, id]
    rw [add_sub_add_left_eq_sub]
    norm_num [closeLocation]
theorem wad_fades_violates (o : Nat → R) : ¬ Fades wadBatch o id :=
  not_fades_flat (wad_value o) ⟨0, 0, 0⟩ ⟨1, 1, 1⟩ ⟨1, 1, 1⟩ (d := 1) one_pos fun n => by
    simp only [sum_range_succ', wadMove, Nat.succ_ne_zero, if_false, if_true, lt_irrefl, sum_const_zero, id]
    norm_num
theorem nvi_fades_violates (o : Nat → R) : ¬ Fades nviBatch o id :=
  not_fades_flat (s := 0) (nvi_value o) ⟨1, 2⟩ ⟨2, 2⟩ ⟨2, 1⟩ (d := 1) one_pos fun n => by
    simp only [prod_range_succ', relChange, Nat.succ_ne_zero, if_false, if_true, lt_irrefl, prod_const_one, id]
    norm_num
theorem pvi_fades_violates (o : Nat → R) : ¬ Fades pviBatch o id :=
  not_fades_flat (s := 0) (pvi_value o) ⟨1, 1⟩ ⟨2, 1⟩ ⟨2, 2⟩ (d := 1) one_pos fun n => by
    simp only [prod_range_succ', relChange, Nat.succ_ne_zero, if_false, if_true, lt_irrefl, prod_const_one, id]
    norm_num
/-- After one rise, or one fall, and no move since then, tsi stays at 100, or at -100. -/
theorem tsi_fades_violates [LawfulAbs R] (o : Nat → R) (h0 : 1 < o 0) (h1 : 1 < o 1) : ¬ Fades tsiBatch o id :=
  not_fades_flat (tsi_value o h0.le h1.le) 0 2 1 (d := 100) (by norm_num) fun n => by
    have g1 : priceChange (fun i : Nat => if i = 0 then (0 : R) else 1) = fun k => if k = 0 then 1 else 0 := funext fun k => by cases k <;> simp [priceChange]
    have g2 : priceChange (fun i : Nat => if i = 0 then (2 : R) else 1) = fun k => if k = 0 then -1 else 0 := funext fun k => by
      cases k <;> norm_num [priceChange]
    have e1 : (fun k : Nat => |if k = 0 then (1 : R) else 0|) = fun k => if k = 0 then 1 else 0 := funext fun k => by split <;> simp
    have e2 : (fun k : Nat => |if k = 0 then (-1 : R) else 0|) = fun k => if k = 0 then 1 else 0 := funext fun k => by split <;> simp
    have m : ∀ n, smooth2 (o 0) (o 1) (fun k : Nat => if k = 0 then (-1 : R) else 0) n = -smooth2 (o 0) (o 1) (fun k : Nat => if k = 0 then (1 : R) else 0) n := fun n => by
      have := Units.smooth2_mul (p := o 0) (q := o 1) (c := -1) (x := fun k : Nat => if k = 0 then (1 : R) else 0) (x' := fun k : Nat => if k = 0 then (-1 : R) else 0)
        (fun i => by split <;> simp) n
      rw [this]; ring
    have keeps : ∀ {v : R} {f : Nat → R}, 1 < v → 0 < f 0 → (∀ n, 0 ≤ f n) → ∀ n, 0 < ema (2 / (1 + v)) f n := fun {v f} hv hf hn n => by
      have k0 : 0 < 2 / (1 + v) := by positivity
      have k1 : 2 / (1 + v) < 1 := by rw [div_lt_one (by linarith)]; linarith
      induction n with
      | zero => exact hf
      | succ n ih => rw [ema]; nlinarith [hn (n + 1)]
    have pos : 0 < smooth2 (o 0) (o 1) (fun k : Nat => if k = 0 then (1 : R) else 0) (n + 1) :=
      keeps h1 (keeps h0 (by simp) (fun n => by split <;> simp) 0) (fun n => (keeps h0 (by simp) (fun n => by split <;> simp) n).le) _
    simp only [trueStrength, g1, g2, e1, e2, m, if_neg pos.ne', neg_div, div_self pos.ne', id]
    norm_num
/-- While the price falls by 1 a bar, decay goes on counting down from the same old bar. -/
theorem decay_fades_violates (o : Nat → R) (p : Nat) (hc : toInt (o 0) = .ok (p : Int)) (hp : 1 ≤ p) : ¬ Fades decayBatch o id := by
  obtain ⟨val, hv, hs⟩ := decay_value o p hc
  have hp1 : (1 : R) ≤ p := by exact_mod_cast hp
  have h1 : 1 / (p : R) ≤ 1 := by rw [div_le_one (by linarith)]; exact hp1
  have e : ∀ (r : R) n, [r] ++ pre (fun n => -((n : R) + 1)) (n + 1) = pre (fun i => if i = 0 then r else -(i : R)) (n + 2) := fun r n => by
    refine List.ext_getElem (by simp [pre]) fun i h1 h2 => ?_
    cases i <;> simp [pre]
  have line : ∀ (r : R) j, 0 ≤ r → val (fun i => if i = 0 then r else -(i : R)) j = r - j * (1 / (p : R)) := fun r j hr => by
    obtain ⟨u, k, hk, hv⟩ := hs (fun i => if i = 0 then r else -(i : R)) j
    refine le_antisymm ?_ (by simpa using u 0 (Nat.zero_le _))
    rw [hv]
    rcases Nat.eq_zero_or_pos k with rfl | hk0
    · simp
    · simp only [if_neg hk0.ne', Nat.cast_sub hk, Int.cast_natCast]
      have : (0 : R) ≤ k := Nat.cast_nonneg k
      nlinarith
  refine not_fades [1] [0] (fun n => -((n : R) + 1)) (fun _ _ => trivial) (fun _ _ => trivial) (fun _ => trivial) 0 (d := 1) one_pos fun n hn =>
    ⟨_, _, _, _, (congrArg _ (e 1 n)).trans (hv _ _), (congrArg _ (e 0 n)).trans (hv _ _), last_pre _ _, last_pre _ _, ?_⟩
  rw [line 1 _ zero_le_one, line 0 _ le_rfl]
  simp
end

end Verif
