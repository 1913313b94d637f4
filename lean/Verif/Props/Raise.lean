/- C81 and C82: raised prices, and sums of series. -/
import Verif.Proof.Raise
import Verif.Props.Units
import Verif.Props.UnitsFits
import Verif.Props.UnitsLimits

namespace Verif
open Spec Finset
open Raise
set_option linter.unusedSectionVars false

section
variable {R : Type} [Field R] [LinearOrder R] [IsStrictOrderedRing R] [CMath R]

/-! ### C81: raising prices -/

theorem sum_rises (o : Nat → R) (p : Nat) (hc : toInt (o 0) = .ok (p : Int)) (hp : 1 ≤ p) :
    Rises sumBatch o :=
  rises_all (sum_value o p hc hp) fun _ _ h j => winSum_le h p j

theorem sma_rises (o : Nat → R) (p : Nat) (hc : toInt (o 0) = .ok (p : Int)) (hp : 1 ≤ p) :
    Rises smaBatch o :=
  rises_all (sma_value o p hc hp) fun _ _ h j => winMean_le h p j

theorem ema_rises (o : Nat → R) (p : Nat) (hc : toInt (o 0) = .ok (p : Int)) (hp : 1 ≤ p) :
    Rises emaBatch o :=
  rises_all (ema_value o p hc hp) fun _ _ h j => ema_le (emaCoef_nonneg p) (emaCoef_le hp) h j

theorem wilders_rises (o : Nat → R) (p : Nat) (hc : toInt (o 0) = .ok (p : Int)) (hp : 1 ≤ p) :
    Rises wildersBatch o :=
  rises_all (wilders_value o p hc hp) fun _ _ h j => wilder_le h hp j

theorem max_rises (o : Nat → R) (p : Nat) (hc : toInt (o 0) = .ok (p : Int)) (hp : 1 ≤ p) :
    Rises maxBatch o :=
  rises_all (max_value o p hc hp) fun _ _ h j => winMax_le h p j

theorem min_rises (o : Nat → R) (p : Nat) (hc : toInt (o 0) = .ok (p : Int)) (hp : 1 ≤ p) :
    Rises minBatch o :=
  rises_all (min_value o p hc hp) fun _ _ h j => Raise.winMin_le h p j

theorem lag_rises (o : Nat → R) (p : Nat) (hc : toInt (o 0) = .ok (p : Int)) :
    Rises lagBatch o :=
  rises_all (lag_value o p hc) fun _ _ h _ => h _

/-- Partial: the weight total does not overflow. -/
theorem wma_rises_partial (o : Nat → R) (p : Nat) (hc : toInt (o 0) = .ok (p : Int)) (hp : 1 ≤ p) (hb : p * (p + 1) ≤ 2147483647) :
    Rises wmaBatch o :=
  rises_all (wma_value_partial o p hc hp hb) fun _ _ h j => wma_le h p j

/-- Partial: the weight total does not overflow. -/
theorem trima_rises_partial (o : Nat → R) (p : Nat) (hc : toInt (o 0) = .ok (p : Int)) (hp : 1 ≤ p) (hb : ((p / 2 : Nat) + 1) * ((p / 2 : Nat) + 1) ≤ 2147483647) :
    Rises trimaBatch o :=
  rises_all (trima_value_partial o p hc hp hb) fun _ _ h j => trima_le h p j

/-- Partial: the start index is computed without overflow. -/
theorem dwma_rises_partial [LawfulTrunc R] [LawfulRound R] (o : Nat → R) (p : Nat) (ho : o 0 = ((p : Int) : R)) (hp : 1 ≤ p) (hb : p ≤ 1073741824) :
    Rises dwmaBatch o :=
  rises_all (dwma_value_partial o p ho hp hb) fun _ _ h j => wma_le (wma_le h p) p j

theorem medprice_rises (o : Nat → R) :
    Rises medpriceBatch o :=
  rises_all (medprice_value o) fun x y h j => by
    obtain ⟨h1, h2⟩ := h j
    simp only [below]; linarith

theorem typprice_rises (o : Nat → R) :
    Rises typpriceBatch o :=
  rises_all (typprice_value o) fun x y h j => by
    obtain ⟨h1, h2, h3⟩ := h j
    simp only [below]; linarith

theorem avgprice_rises (o : Nat → R) :
    Rises avgpriceBatch o :=
  rises_all (avgprice_value o) fun x y h j => by
    obtain ⟨h1, h2, h3, h4⟩ := h j
    simp only [below]; linarith

theorem wcprice_rises (o : Nat → R) :
    Rises wcpriceBatch o :=
  rises_all (wcprice_value o) fun x y h j => by
    obtain ⟨h1, h2, h3⟩ := h j
    simp only [below]; linarith

/-- Partial: period 1 reads an unset variable (`pc_violates`). -/
theorem pc_rises_partial [LawfulTrunc R] [LawfulRound R] (o : Nat → R) (p : Nat) (hc : toInt (o 0) = .ok (p : Int)) (hp : 2 ≤ p) :
    Rises pcBatch o :=
  rises_all (pc_value_partial o p hc hp) fun _ _ h j => ⟨winMax_le (fun i => (h i).1) p j, Raise.winMin_le (fun i => (h i).2) p j⟩

theorem midChannel_le {x y : Nat → HL R} (h : ∀ i, below (x i) (y i)) (p i : Nat) : midChannel p x i ≤ midChannel p y i := by
  have h1 := winMax_le (x := fun k => (x k).high) (y := fun k => (y k).high) (fun i => (h i).1) p (i + 1 - p)
  have h2 := Raise.winMin_le (x := fun k => (x k).low) (y := fun k => (y k).low) (fun i => (h i).2) p (i + 1 - p)
  unfold midChannel; linarith

/-- Partial: periods whose sum overflows are left out. -/
theorem ichi_rises_partial [LawfulTrunc R] [LawfulRound R] (o : Nat → R) (p9 p26 p52 : Nat) (h0 : toInt (o 0) = .ok (p9 : Int)) (h1 : toInt (o 1) = .ok (p26 : Int))
    (h2 : toInt (o 2) = .ok (p52 : Int)) (h9 : 1 ≤ p9) (h26 : p9 ≤ p26) (h52 : p26 ≤ p52) (hb : p52 - 1 + p26 ≤ 2147483647)
    (hb' : p26 + 1 ≤ 2147483647) :
    Rises ichiBatch o :=
  rises_all (ichi_value_partial o p9 p26 p52 h0 h1 h2 h9 h26 h52 hb hb') fun x y h j =>
    ⟨midChannel_le h _ _, midChannel_le h _ _, by linarith [midChannel_le h p9 (p52 - 1 + j), midChannel_le h p26 (p52 - 1 + j)], midChannel_le h _ _⟩

/-- Partial: average period 1 (`mhlma_violates`) is left out. -/
theorem mhlma_rises_partial [LawfulTrunc R] [LawfulRound R] (o : Nat → R) (p ma : Nat) (hcp : toInt (o 0) = .ok (p : Int)) (hcm : toInt (o 1) = .ok (ma : Int))
    (hp : 1 ≤ p) (hma : 2 ≤ ma) (hb : ma < 2147483647) :
    Rises mhlmaBatch o :=
  rises_all (mhlma_value_partial o p ma hcp hcm hp hma hb) fun x y h j => by
    have m : ∀ i, midRange p x i ≤ midRange p y i := fun i => by
      have h1 := winMax_le h (min p (i + 1)) (i + 1 - min p (i + 1))
      have h2 := Raise.winMin_le h (min p (i + 1)) (i + 1 - min p (i + 1))
      unfold midRange; linarith
    exact ⟨winMean_le m ma j, ema_le (emaCoef_nonneg ma) (emaCoef_le (by omega)) m _⟩

theorem decay_rises (o : Nat → R) (p : Int) (hc : toInt (o 0) = .ok p) :
    Rises decayBatch o :=
  by
    obtain ⟨val, hv, h⟩ := decay_value o p hc
    exact rises_all hv fun x y hb j => by
      obtain ⟨k, hk, e⟩ := (h x j).2
      have h1 := (h y j).1 k hk
      have h2 : x k ≤ y k := hb k
      simp only [below]; linarith

theorem edecay_rises (o : Nat → R) (p : Nat) (hc : toInt (o 0) = .ok (p : Int)) (hp : 1 ≤ p) :
    Rises edecayBatch o :=
  by
    obtain ⟨val, hv, h⟩ := edecay_value o p hc hp
    have p1 : (1 : R) ≤ p := by exact_mod_cast hp
    have hs : (0 : R) ≤ 1 - 1 / (p : R) := by rw [sub_nonneg, div_le_one (by linarith)]; exact p1
    exact rises_all hv fun x y hb j => by
      obtain ⟨k, hk, e⟩ := (h x j).2
      have h1 := (h y j).1 k hk
      have h2 := mul_le_mul_of_nonneg_right (show x k ≤ y k from hb k) (pow_nonneg hs (j - k))
      simp only [below]; linarith

/-- A quotient by positive volumes; the exception for a zero numerator makes no difference. -/
theorem share_zero (s v : R) : (if s = 0 then 0 else s / v) = s / v := by
  split <;> simp_all

theorem vwma_rises (o : Nat → R) (p : Nat) (hc : toInt (o 0) = .ok (p : Int)) (hp : 1 ≤ p) :
    Rises vwmaBatch o fun r => 0 ≤ r.volume :=
  rises (vwma_value o p hc hp) fun x y h hx _ j => by
    simp only [share_zero, below]
    rw [show (fun i => (y i).volume) = fun i => (x i).volume from funext fun i => (h i).2.symm]
    refine div_le_div_of_nonneg_right (winSum_le (fun i => ?_) p j) (sum_nonneg fun k _ => hx _)
    rw [← (h i).2]
    exact mul_le_mul_of_nonneg_right (h i).1 (hx i)

theorem vwap_rises [LawfulTrunc R] [LawfulRound R] (o : Nat → R) (p : Nat) (hc : toInt (o 0) = .ok (p : Int)) (hp : 1 ≤ p) :
    Rises vwapBatch o fun r => 0 ≤ r.volume :=
  rises (vwap_value o p hc hp) fun x y h hx _ j => by
    simp only [volumeMean, share_zero, below]
    rw [show (fun i => (y i).volume) = fun i => (x i).volume from funext fun i => (h i).2.2.2.symm]
    refine div_le_div_of_nonneg_right (winSum_le (fun i => ?_) p j) (sum_nonneg fun k _ => hx _)
    rw [← (h i).2.2.2]
    refine mul_le_mul_of_nonneg_right ?_ (hx i)
    obtain ⟨h1, h2, h3, -⟩ := h i
    simp only [typical]; linarith

/-- Volume factors below 1 can let a bar pull the average past its close. -/
theorem evwma_rises (o : Nat → R) (p : Nat) (hc : toInt (o 0) = .ok (p : Int)) (hp : 1 ≤ p) (hg : 1 ≤ o 1) :
    Rises evwmaBatch o fun r => 0 < r.volume :=
  rises (evwma_value o p hc hp (by linarith)) fun x y h hx _ j => by
    induction j with
    | zero => exact (h _).1
    | succ j ih =>
      simp only [below] at ih ⊢
      have e : (fun i => (y i).volume) = fun i => (x i).volume := funext fun i => (h i).2.symm
      have t : 0 < winSum p (fun k => (x k).volume) (j + 1) := sum_pos (fun k _ => hx _) ⟨0, mem_range.2 (by omega)⟩
      have v : (x (j + p)).volume ≤ winSum p (fun k => (x k).volume) (j + 1) := by
        have := single_le_sum (f := fun k => (x (j + 1 + k)).volume) (fun k _ => (hx _).le) (mem_range.2 (show p - 1 < p by omega))
        rwa [show j + 1 + (p - 1) = j + p by omega] at this
      rw [elasticMean, elasticMean, e, if_neg t.ne', if_neg t.ne', ← (h (j + p)).2]
      have w0 : 0 ≤ (x (j + p)).volume / (o 1 * winSum p (fun k => (x k).volume) (j + 1)) := div_nonneg (hx _).le (mul_pos (by linarith) t).le
      have w1 : (x (j + p)).volume / (o 1 * winSum p (fun k => (x k).volume) (j + 1)) ≤ 1 := by
        rw [div_le_one (mul_pos (by linarith) t)]
        nlinarith [mul_le_mul_of_nonneg_right hg t.le]
      have a := mul_le_mul_of_nonneg_left ih (sub_nonneg.2 w1)
      have b := mul_le_mul_of_nonneg_left (h (j + p)).1 w0
      linarith

theorem dot_le {c : List R} (hc : ∀ a ∈ c, 0 ≤ a) : ∀ {u v : List R}, List.Forall₂ (· ≤ ·) u v → Spec.dot c u ≤ Spec.dot c v := by
  induction c with
  | nil => intro u v _; simp [Spec.dot]
  | cons a c ih =>
    intro u v h
    cases h with
    | nil => simp [Spec.dot]
    | cons h1 h2 =>
      have := ih (fun b hb => hc b (by simp [hb])) h2
      have h3 := mul_le_mul_of_nonneg_left h1 (hc a (by simp))
      simp only [Spec.dot, List.zipWith_cons_cons, List.sum_cons] at this ⊢
      linarith

theorem past_le {x y : Nat → R} (h : ∀ i, x i ≤ y i) : ∀ n, List.Forall₂ (· ≤ ·) (past x n) (past y n)
  | 0 => .nil
  | n + 1 => .cons (h n) (past_le h n)

theorem iirPast_le {b a : List R} (hb : ∀ c ∈ b, 0 ≤ c) (ha : ∀ c ∈ a, 0 ≤ c) {x y : Nat → R} (h : ∀ i, x i ≤ y i) :
    ∀ n, List.Forall₂ (· ≤ ·) (iirPast b a x n) (iirPast b a y n)
  | 0 => .nil
  | n + 1 => .cons (add_le_add (dot_le hb (past_le h (n + 1))) (dot_le ha (iirPast_le hb ha h n))) (iirPast_le hb ha h n)

/-- A recursive filter whose coefficients are not negative. -/
theorem iir_le {b a : List R} (hb : ∀ c ∈ b, 0 ≤ c) (ha : ∀ c ∈ a, 0 ≤ c) {x y : Nat → R} (h : ∀ i, x i ≤ y i) (n : Nat) : iir b a x n ≤ iir b a y n :=
  add_le_add (dot_le hb (past_le h (n + 1))) (dot_le ha (iirPast_le hb ha h n))

theorem gf1_rises (o : Nat → R) (q : Nat) (h1 : 1 ≤ q) (h2 : q ≤ 20) (hc : toInt (o 0) = .ok ((2 * q : Nat) : Int)) : Rises gf1Batch o :=
  rises_all (gf1_value o q h1 h2 hc) fun _ _ h j =>
    iir_le (by simpa using (coef_pos (R := R) gf1B0 (by decide) q h1 h2).le) (by simpa using (coef_pos (R := R) gf1A1 (by decide) q h1 h2).le) h j

theorem gf3_rises (o : Nat → R) (q : Nat) (h1 : 1 ≤ q) (h2 : q ≤ 20) (hc : toInt (o 0) = .ok ((2 * q : Nat) : Int)) : Rises gf3Batch o :=
  rises_all (gf3_ignores_period o q h1 h2 hc) fun _ _ h j => iir_le (by simp) (by simp) h j

/-! ### C82: sums of series -/

theorem sum_addsUp (o : Nat → R) (p : Nat) (hc : toInt (o 0) = .ok (p : Int)) (hp : 1 ≤ p) :
    AddsUp sumBatch o :=
  addsUp (sum_value o p hc hp) fun _ _ j => winSum_add (fun _ => rfl) p j

theorem sma_addsUp (o : Nat → R) (p : Nat) (hc : toInt (o 0) = .ok (p : Int)) (hp : 1 ≤ p) :
    AddsUp smaBatch o :=
  addsUp (sma_value o p hc hp) fun _ _ j => winMean_add (fun _ => rfl) p j

theorem ema_addsUp (o : Nat → R) (p : Nat) (hc : toInt (o 0) = .ok (p : Int)) (hp : 1 ≤ p) :
    AddsUp emaBatch o :=
  addsUp (ema_value o p hc hp) fun _ _ j => ema_add (fun _ => rfl) j

theorem wilders_addsUp (o : Nat → R) (p : Nat) (hc : toInt (o 0) = .ok (p : Int)) (hp : 1 ≤ p) :
    AddsUp wildersBatch o :=
  addsUp (wilders_value o p hc hp) fun _ _ j => wilder_add (fun _ => rfl) p j

theorem lag_addsUp (o : Nat → R) (p : Nat) (hc : toInt (o 0) = .ok (p : Int)) :
    AddsUp lagBatch o :=
  addsUp (lag_value o p hc) fun _ _ _ => rfl

theorem mom_addsUp (o : Nat → R) (p : Nat) (hc : toInt (o 0) = .ok (p : Int)) (hp : 1 ≤ p) :
    AddsUp momBatch o :=
  addsUp (mom_value o p hc hp) fun _ _ _ => by simp only [added]; ring

/-- Partial: the weight total does not overflow. -/
theorem wma_addsUp_partial (o : Nat → R) (p : Nat) (hc : toInt (o 0) = .ok (p : Int)) (hp : 1 ≤ p) (hb : p * (p + 1) ≤ 2147483647) :
    AddsUp wmaBatch o :=
  addsUp (wma_value_partial o p hc hp hb) fun x y j => wma_add (x := x) (y := y) (fun _ => rfl) p j

/-- Partial: the weight total does not overflow. -/
theorem trima_addsUp_partial (o : Nat → R) (p : Nat) (hc : toInt (o 0) = .ok (p : Int)) (hp : 1 ≤ p) (hb : ((p / 2 : Nat) + 1) * ((p / 2 : Nat) + 1) ≤ 2147483647) :
    AddsUp trimaBatch o :=
  addsUp (trima_value_partial o p hc hp hb) fun _ _ j => trima_add (fun _ => rfl) p j

/-- Partial: the start index is computed without overflow. -/
theorem dwma_addsUp_partial [LawfulTrunc R] [LawfulRound R] (o : Nat → R) (p : Nat) (ho : o 0 = ((p : Int) : R)) (hp : 1 ≤ p) (hb : p ≤ 1073741824) :
    AddsUp dwmaBatch o :=
  addsUp (dwma_value_partial o p ho hp hb) fun _ _ j => wma_add (fun i => wma_add (fun _ => rfl) p i) p j

theorem pwma_addsUp [LawfulTrunc R] [LawfulRound R] (o : Nat → R) (p : Nat) (hc : toInt (o 0) = .ok (p : Int)) (hp : 1 ≤ p) :
    AddsUp pwmaBatch o :=
  addsUp (pwma_value o p hc hp) fun _ _ j => powerMean_add (fun _ => rfl) p j

theorem swma_addsUp (o : Nat → R) (p : Nat) (hc : toInt (o 0) = .ok (p : Int)) (hp : 1 ≤ p) (hb : p < 2147483647) (h1 : p % 6 ≠ 0) (h2 : p % 6 ≠ 5) :
    AddsUp swmaBatch o :=
  addsUp (swma_value o p hc hp hb h1 h2) fun _ _ j => backMean_add (fun _ => rfl) p j

theorem lma_addsUp [LawfulTrunc R] [LawfulRound R] (o : Nat → R) (p : Nat) (hc : toInt (o 0) = .ok (p : Int)) (hp : 1 ≤ p) :
    AddsUp lmaBatch o :=
  addsUp (lma_value o p hc hp) fun x y j => by
    simp only [added]
    rw [wma_add (x := x) (y := y) (fun _ => rfl), winMean_add (x := x) (y := y) (fun _ => rfl)]; ring

/-- Partial: the weight total does not overflow. -/
theorem shmma_addsUp_partial [LawfulTrunc R] [LawfulRound R] (o : Nat → R) (p : Nat) (hc : toInt (o 0) = .ok (p : Int)) (hp : 1 ≤ p) (hb : (p + 1) * p ≤ 2147483647) :
    AddsUp shmmaBatch o :=
  addsUp (shmma_value_partial o p hc hp hb) fun _ _ j => sharpMean_add (fun _ => rfl) p j

theorem t3_addsUp (o : Nat → R) (h0 : 1 ≤ o 0) (h1 : 0 ≤ o 1) :
    AddsUp t3Batch o :=
  addsUp (t3_value o h0 h1) fun _ _ j => gdema_add (fun i => gdema_add (fun i => gdema_add (fun _ => rfl) i) i) j

theorem ehma_addsUp (o : Nat → R) (p : Nat) (hc : toInt (o 0) = .ok (p : Int)) (hp : 1 ≤ p) :
    AddsUp ehmaBatch o :=
  addsUp (ehma_value o p hc hp) fun _ _ j => hullEma_add (fun _ => rfl) j

theorem hwma_addsUp (o : Nat → R) (p : Nat) (hc : toInt (o 0) = .ok (p : Int)) (h7 : 7 ≤ p) (h13 : p ≤ 13) :
    AddsUp hwmaBatch o :=
  addsUp (hwma_value o p hc h7 h13) fun _ _ j => henderson_add (fun _ => rfl) p _

/-- Partial: the weight totals do not overflow. -/
theorem hma_addsUp_partial (o : Nat → R) (p s : Nat) (hc : toInt (o 0) = .ok (p : Int)) (hs : toInt (CMath.sqrt ((p : Int) : R)) = .ok (s : Int)) (hp : 2 ≤ p) (hs1 : 1 ≤ s) (hsp : s ≤ p) (hb : p * (p + 1) ≤ 2147483647) :
    AddsUp hmaBatch o :=
  addsUp (hma_value_partial o p s hc hs hp hs1 hsp hb) fun x y j => wma_add (fun m => by
    simp only [added]
    rw [wma_add (x := x) (y := y) (fun _ => rfl), wma_add (x := x) (y := y) (fun _ => rfl)]; ring) s j

/-- Partial: the start index is computed without overflow. -/
theorem dema_addsUp_partial (o : Nat → R) (p : Nat) (hc : toInt (o 0) = .ok (p : Int)) (hp : 1 ≤ p) (hb : (p - 1) * 2 ≤ 2147483647) :
    AddsUp demaBatch o :=
  addsUp (dema_value_partial o p hc hp hb) fun x y j => by
    have e := ema_add (k := emaCoef p) (x := x) (y := y) (z := fun i => x i + y i) fun _ => rfl
    have e2 := ema_add (k := emaCoef p) (x := shift (p - 1) (ema (emaCoef p) x)) (y := shift (p - 1) (ema (emaCoef p) y))
      (z := shift (p - 1) (ema (emaCoef p) fun i => x i + y i)) fun i => e _
    simp only [added, e, e2]; ring

/-- Partial: the start index is computed without overflow. -/
theorem tema_addsUp_partial (o : Nat → R) (p : Nat) (hc : toInt (o 0) = .ok (p : Int)) (hp : 1 ≤ p) (hb : (p - 1) * 3 ≤ 2147483647) :
    AddsUp temaBatch o :=
  addsUp (tema_value_partial o p hc hp hb) fun x y j => by
    have e := ema_add (k := emaCoef p) (x := x) (y := y) (z := fun i => x i + y i) fun _ => rfl
    have e2 := ema_add (k := emaCoef p) (x := shift (p - 1) (ema (emaCoef p) x)) (y := shift (p - 1) (ema (emaCoef p) y))
      (z := shift (p - 1) (ema (emaCoef p) fun i => x i + y i)) fun i => e _
    have e3 := ema_add (k := emaCoef p) (x := shift (p - 1) (ema (emaCoef p) (shift (p - 1) (ema (emaCoef p) x))))
      (y := shift (p - 1) (ema (emaCoef p) (shift (p - 1) (ema (emaCoef p) y))))
      (z := shift (p - 1) (ema (emaCoef p) (shift (p - 1) (ema (emaCoef p) fun i => x i + y i)))) fun i => e2 _
    simp only [added, e, e2, e3]; ring

/-- Partial: periods 1 and 2 are out of bounds. -/
theorem zlema_addsUp_partial (o : Nat → R) (p : Nat) (hc : toInt (o 0) = .ok (p : Int)) (hp : 3 ≤ p) :
    AddsUp zlemaBatch o :=
  addsUp (zlema_value_partial o p hc hp) fun x y j => by
    refine ema_add (fun i => ?_) j
    simp only [added]
    split
    · rfl
    · ring

theorem apo_addsUp (o : Nat → R) (p q : Nat) (hc : toInt (o 0) = .ok (p : Int)) (hc1 : toInt (o 1) = .ok (q : Int)) (hp : 1 ≤ p) (hq : 2 ≤ q) (hpq : p ≤ q) :
    AddsUp apoBatch o :=
  addsUp (apo_value o p q hc hc1 hp hq hpq) fun x y j => by
    simp only [added]
    rw [ema_add (x := x) (y := y) (fun _ => rfl), ema_add (x := x) (y := y) (fun _ => rfl)]; ring

theorem macd_addsUp (o : Nat → R) (p q r : Nat) (hc : toInt (o 0) = .ok (p : Int)) (hc1 : toInt (o 1) = .ok (q : Int)) (hc2 : toInt (o 2) = .ok (r : Int)) (hp : 1 ≤ p) (hq : 2 ≤ q) (hpq : p ≤ q) (hr : 1 ≤ r) :
    AddsUp macdBatch o :=
  addsUp (macd_value o p q r hc hc1 hc2 hp hq hpq hr) fun x y j => by
    have l : ∀ i, ema (macdCoef p q).1 (fun i => x i + y i) i - ema (macdCoef p q).2 (fun i => x i + y i) i =
        (ema (macdCoef p q).1 x i - ema (macdCoef p q).2 x i) + (ema (macdCoef p q).1 y i - ema (macdCoef p q).2 y i) := fun i => by
      rw [ema_add (x := x) (y := y) fun _ => rfl, ema_add (x := x) (y := y) fun _ => rfl]; ring
    have s := ema_add (k := emaCoef r) (x := shift (q - 1) fun i => ema (macdCoef p q).1 x i - ema (macdCoef p q).2 x i)
      (y := shift (q - 1) fun i => ema (macdCoef p q).1 y i - ema (macdCoef p q).2 y i)
      (z := shift (q - 1) fun i => ema (macdCoef p q).1 (fun i => x i + y i) i - ema (macdCoef p q).2 (fun i => x i + y i) i) (fun i => l _) j
    change Macd.mk _ _ _ = Macd.mk _ _ _
    refine (Macd.mk.injEq ..).mpr ⟨l _, s, (congrArg₂ (· - ·) (l _) s).trans ?_⟩
    ring

theorem medprice_addsUp (o : Nat → R) :
    AddsUp medpriceBatch o :=
  addsUp (medprice_value o) fun x y j => by simp only [added]; ring

theorem typprice_addsUp (o : Nat → R) :
    AddsUp typpriceBatch o :=
  addsUp (typprice_value o) fun x y j => by simp only [added]; ring

theorem avgprice_addsUp (o : Nat → R) :
    AddsUp avgpriceBatch o :=
  addsUp (avgprice_value o) fun x y j => by simp only [added]; ring

theorem wcprice_addsUp (o : Nat → R) :
    AddsUp wcpriceBatch o :=
  addsUp (wcprice_value o) fun x y j => by simp only [added]; ring

theorem qstick_addsUp (o : Nat → R) (p : Nat) (hc : toInt (o 0) = .ok (p : Int)) (hp : 1 ≤ p) :
    AddsUp qstickBatch o :=
  addsUp (qstick_value o p hc hp) fun x y j => winMean_add (fun i => by simp only [added]; ring) p j

/-- Partial: periods 1 and 2 read before the input (`dpo_violates`). -/
theorem dpo_addsUp_partial (o : Nat → R) (p : Nat) (hc : toInt (o 0) = .ok (p : Int)) (hp : 3 ≤ p) :
    AddsUp dpoBatch o :=
  addsUp (dpo_value_partial o p hc hp) fun x y j => by
    simp only [added]
    rw [winMean_add (x := x) (y := y) (fun _ => rfl)]; ring

theorem ao_addsUp (o : Nat → R) :
    AddsUp aoBatch o :=
  addsUp (ao_value o) fun x y j => by
    have m := fun p j => winMean_add (x := fun k => ((x k).high + (x k).low) / 2) (y := fun k => ((y k).high + (y k).low) / 2)
      (z := fun k => (x k).high / 2 + (y k).high / 2 + ((x k).low / 2 + (y k).low / 2)) (fun i => by ring) p j
    simp only [added]
    rw [show (fun k => ((x k).high + (y k).high + ((x k).low + (y k).low)) / 2) = fun k => (x k).high / 2 + (y k).high / 2 + ((x k).low / 2 + (y k).low / 2) from
      funext fun k => by ring, m, m]; ring

/-- The lines of best fit add up. -/
theorem line_add {p : Nat} (hp : 2 ≤ p) {A B : (Nat → R) → Nat → R} (h : ∀ x j, IsBestLine p x j (A x j) (B x j)) (x y : Nat → R) (j : Nat) :
    A (fun i => x i + y i) j = A x j + A y j ∧ B (fun i => x i + y i) j = B x j + B y j := by
  obtain ⟨a1, b1⟩ := lr_unique x p j hp _ _ (h x j)
  obtain ⟨a2, b2⟩ := lr_unique y p j hp _ _ (h y j)
  obtain ⟨a3, b3⟩ := lr_unique (fun i => x i + y i) p j hp _ _ (h (fun i => x i + y i) j)
  have eY : lrY (fun i => x i + y i) p j = lrY x p j + lrY y p j := by
    rw [lrY_eq _ p j (by omega), lrY_eq _ p j (by omega), lrY_eq _ p j (by omega), sum_add_distrib]
  have eXY : lrXY (fun i => x i + y i) p j = lrXY x p j + lrXY y p j := by
    rw [lrXY_eq _ p j (by omega), lrXY_eq _ p j (by omega), lrXY_eq _ p j (by omega), ← sum_add_distrib]
    exact sum_congr rfl fun k _ => by ring
  have eB : lrB (fun i => x i + y i) p j = lrB x p j + lrB y p j := by rw [lrB, lrB, lrB, eY, eXY]; ring
  have eA : lrA (fun i => x i + y i) p j = lrA x p j + lrA y p j := by rw [lrA, lrA, lrA, eY, eB]; ring
  exact ⟨by rw [a1, a2, a3, eA], by rw [b1, b2, b3, eB]⟩

/-- Partial: period 1 and periods whose square overflows are left out. -/
theorem linreg_addsUp_partial (o : Nat → R) (p : Nat) (hc : toInt (o 0) = .ok (p : Int)) (hp : 2 ≤ p) (hpp : p * p ≤ 2147483647) :
    AddsUp linregBatch o :=
  by
    obtain ⟨A, B, h1, h2⟩ := linreg_value_partial o p hc hp hpp
    exact addsUp h2 fun x y j => by
      obtain ⟨e1, e2⟩ := line_add hp h1 x y j
      simp only [added] at e1 e2 ⊢
      rw [e1, e2]; ring

/-- Partial: period 1 and periods whose square overflows are left out. -/
theorem linregintercept_addsUp_partial (o : Nat → R) (p : Nat) (hc : toInt (o 0) = .ok (p : Int)) (hp : 2 ≤ p) (hpp : p * p ≤ 2147483647) :
    AddsUp linreginterceptBatch o :=
  by
    obtain ⟨A, B, h1, h2⟩ := linregintercept_value_partial o p hc hp hpp
    exact addsUp h2 fun x y j => by
      obtain ⟨e1, e2⟩ := line_add hp h1 x y j
      simp only [added] at e1 e2 ⊢
      rw [e1, e2]; ring

/-- Partial: period 1 and periods whose square overflows are left out. -/
theorem linregslope_addsUp_partial (o : Nat → R) (p : Nat) (hc : toInt (o 0) = .ok (p : Int)) (hp : 2 ≤ p) (hpp : p * p ≤ 2147483647) :
    AddsUp linregslopeBatch o :=
  by
    obtain ⟨A, B, h1, h2⟩ := linregslope_value_partial o p hc hp hpp
    exact addsUp h2 fun x y j => by
      obtain ⟨e1, e2⟩ := line_add hp h1 x y j
      simp only [added] at e1 e2 ⊢
      rw [e2]

/-- Partial: period 1 and periods whose square overflows are left out. -/
theorem tsf_addsUp_partial (o : Nat → R) (p : Nat) (hc : toInt (o 0) = .ok (p : Int)) (hp : 2 ≤ p) (hpp : p * p ≤ 2147483647) :
    AddsUp tsfBatch o :=
  by
    obtain ⟨A, B, h1, h2⟩ := tsf_value_partial o p hc hp hpp
    exact addsUp h2 fun x y j => by
      obtain ⟨e1, e2⟩ := line_add hp h1 x y j
      simp only [added] at e1 e2 ⊢
      rw [e1, e2]; ring

end

/-! ### What does not rise, and what does not add up -/

theorem not_rises {batch : (Nat → Rat) → List Rat → M (Ret × List Rat)} {o : Nat → Rat} (xs ys : List Rat) (i : Nat) (hb : List.Forall₂ (· ≤ ·) xs ys)
    (h : ∀ u v, batch o xs = .ok (.okay, u) → batch o ys = .ok (.okay, v) → v.getD i 0 < u.getD i 0) : ¬ Rises batch o := fun H => by
  obtain ⟨u, v, hu, hv, hl⟩ := H xs ys hb (fun _ _ => trivial) (fun _ _ => trivial)
  have := h u v hu hv
  have hl' := hl.length_eq
  by_cases hi : i < u.length
  · rw [getD_in _ _ hi, getD_in _ _ (hl' ▸ hi)] at this
    exact absurd ((List.forall₂_iff_get.1 hl).2 i hi (hl' ▸ hi)) (not_le.2 this)
  · rw [getD_out _ _ (by omega), getD_out _ _ (by omega)] at this
    exact lt_irrefl _ this

/-- Decide a claim about the outputs of two concrete calls. -/
macro "two_calls" xs:term ", " ys:term ", " i:term : tactic => `(tactic| (
  refine not_rises $xs $ys $i (by norm_num [List.forall₂_cons, List.replicate]) fun u v hu hv => ?_
  have key : ∀ a b : M (Ret × List Rat), (match a, b with | .ok (.okay, u), .ok (.okay, v) => decide (v.getD $i 0 < u.getD $i 0) | _, _ => false) = true →
      a = .ok (.okay, u) → b = .ok (.okay, v) → v.getD $i 0 < u.getD $i 0 := fun a b h e1 e2 => by subst e1 e2; simpa using h
  exact key _ _ (by decide +kernel) hu hv))

/-- Raising an old price lowers later values: the weights of dema are not all positive (so for the next ones). -/
theorem dema_rises_violates : ¬ Rises demaBatch (opts [3]) := by
  two_calls [0,0,0,0,0,0], [1,0,0,0,0,0], 1
theorem tema_rises_violates : ¬ Rises temaBatch (opts [3]) := by
  two_calls [0,0,0,0,0,0,0], [1,0,0,0,0,0,0], 0
theorem zlema_rises_violates : ¬ Rises zlemaBatch (opts [5]) := by
  two_calls [0,0,0], [1,0,0], 1
theorem hma_rises_violates : ¬ Rises hmaBatch (opts [4]) := by
  two_calls [0,0,0,0,0], [1,0,0,0,0], 0
theorem linreg_rises_violates : ¬ Rises linregBatch (opts [3]) := by
  two_calls [0,0,0], [1,0,0], 0
theorem tsf_rises_violates : ¬ Rises tsfBatch (opts [3]) := by
  two_calls [0,0,0], [1,0,0], 0
theorem linregintercept_rises_violates : ¬ Rises linreginterceptBatch (opts [3]) := by
  two_calls [0,0,0], [0,0,1], 0
theorem lma_rises_violates : ¬ Rises lmaBatch (opts [4]) := by
  two_calls [0,0,0,0], [1,0,0,0], 0
theorem hwma_rises_violates : ¬ Rises hwmaBatch (opts [7]) := by
  two_calls [0,0,0,0,0,0,0], [1,0,0,0,0,0,0], 0
theorem t3_rises_violates : ¬ Rises t3Batch (opts [5, 7/10]) := by
  two_calls [0,0,0,0,0,0,0,0], [1,0,0,0,0,0,0,0], 7
theorem shmma_rises_violates : ¬ Rises shmmaBatch (opts [3]) := by
  two_calls [0,0,0], [1,0,0], 0
theorem ehma_rises_violates : ¬ Rises ehmaBatch (opts [4]) := by
  two_calls [0,0,0,0], [1,0,0,0], 3
theorem bf2_rises_violates : ¬ Rises bf2Batch (opts [6]) := by
  two_calls [0,0,0,0,0,0,0,0], [1,0,0,0,0,0,0,0], 3
theorem rema_rises_violates : ¬ Rises remaBatch (opts [5, 1/2]) := by
  two_calls [0,0,0,0,0,0,0,0,0], [1,0,0,0,0,0,0,0,0], 8
theorem ahma_rises_violates : ¬ Rises ahmaBatch (opts [2]) := by
  two_calls [0,0,0], [1,0,0], 2
/-- Raising the oldest price makes the move look less efficient, and kama follows it less. -/
theorem kama_rises_violates : ¬ Rises kamaBatch (opts [2]) := by
  two_calls [0,0,5], [5,0,5], 1
/-- Raising one price changes the weights of the others. -/
theorem edcf_rises_violates : ¬ Rises edcfBatch (opts [3]) := by
  two_calls [0,0,0,1,0,3], [0,0,0,1,2,3], 0

theorem not_addsUp {batch : (Nat → Rat) → List Rat → M (Ret × List Rat)} {o : Nat → Rat} (xs ys u v w : List Rat) (hl : xs.length = ys.length)
    (hu : batch o xs = .ok (.okay, u)) (hv : batch o ys = .ok (.okay, v)) (hw : batch o (List.zipWith (· + ·) xs ys) = .ok (.okay, w))
    (h : w ≠ List.zipWith (· + ·) u v) : ¬ AddsUp batch o := fun H => by
  obtain ⟨u', v', hu', hv', -, hw'⟩ := H xs ys hl
  rw [hu] at hu'
  rw [hv] at hv'
  simp only [Except.ok.injEq, Prod.mk.injEq, true_and] at hu' hv'
  subst hu' hv'
  have : batch o (List.zipWith (· + ·) xs ys) = .ok (.okay, List.zipWith (· + ·) u v) := hw'
  rw [hw] at this
  simp only [Except.ok.injEq, Prod.mk.injEq, true_and] at this
  exact h this

/-- The highest price of a sum is not the sum of the highest prices. -/
theorem max_addsUp_violates : ¬ AddsUp maxBatch (opts [2]) :=
  not_addsUp [1, 0] [0, 1] [1] [1] [1] rfl (by decide +kernel) (by decide +kernel) (by decide +kernel) (by decide +kernel)
/-- Nor do rates of change. -/
theorem roc_addsUp_violates : ¬ AddsUp rocBatch (opts [1]) :=
  not_addsUp [1, 2] [1, 1] [1] [0] [1/2] rfl (by decide +kernel) (by decide +kernel) (by decide +kernel) (by decide +kernel)
/-- Nor do adaptive averages. -/
theorem kama_addsUp_violates : ¬ AddsUp kamaBatch (opts [2]) := by
  refine not_addsUp [0, 0, 5] [5, 0, 0] [0, 20/9] [0, 0] [0, 20/961] rfl (by decide +kernel) (by decide +kernel) (by decide +kernel) (by decide +kernel)

/-! Concrete instances of the hypotheses, and what the theorems say about two series. -/

example : ∃ u v : List Rat, smaBatch (opts [2]) [1, 2, 3] = .ok (.okay, u) ∧ smaBatch (opts [2]) [1, 4, 3] = .ok (.okay, v) ∧ List.Forall₂ (· ≤ ·) u v :=
  sma_rises (opts [2]) 2 (by decide +kernel) (by decide) _ _ (by norm_num [below]) (by simp) (by simp)
example : Rises (R := Rat) wmaBatch (opts [3]) := wma_rises_partial _ 3 (by decide +kernel) (by decide) (by decide)
example : Rises (R := Rat) emaBatch (opts [3]) := ema_rises _ 3 (by decide +kernel) (by decide)
example : smaBatch (opts [2] : Nat → Rat) [1, 2, 3] = .ok (.okay, [3/2, 5/2]) ∧ smaBatch (opts [2] : Nat → Rat) [1, 4, 3] = .ok (.okay, [5/2, 7/2]) := by decide +kernel
example : AddsUp (R := Rat) macdBatch (opts [2, 3, 2]) := macd_addsUp _ 2 3 2 (by decide +kernel) (by decide +kernel) (by decide +kernel) (by decide) (by decide) (by decide) (by decide)
example : AddsUp (R := Rat) linregBatch (opts [3]) := linreg_addsUp_partial _ 3 (by decide +kernel) (by decide) (by decide)
example : AddsUp (R := Rat) hmaBatch (opts [4]) := hma_addsUp_partial _ 4 2 (by decide +kernel) (by decide +kernel) (by decide) (by decide) (by decide) (by decide)
example : AddsUp (R := Rat) t3Batch (opts [5, 7/10]) := t3_addsUp _ (by decide +kernel) (by decide +kernel)
example : linregBatch (opts [3] : Nat → Rat) [1, 0, 0] = .ok (.okay, [-1/6]) ∧ linregBatch (opts [3] : Nat → Rat) [0, 0, 1] = .ok (.okay, [5/6]) ∧
    linregBatch (opts [3] : Nat → Rat) [1, 0, 1] = .ok (.okay, [2/3]) := by decide +kernel
end Verif
