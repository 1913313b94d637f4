/- C78, continued: the element-wise functions, the recursive filters, and examples. -/
import Verif.Props.Fading
import Verif.Props.ConvergeReal
import Verif.Props.Elementwise
import Verif.Proof.FadingFilters

namespace Verif
open Spec Finset
open Spec (ema wilder)
open Memory
set_option linter.unusedSectionVars false

section
variable {R : Type} [Field R] [LinearOrder R] [IsStrictOrderedRing R] [CMath R]

/-! ### Functions of one bar -/
theorem abs_window (o : Nat → R) : Windowed absBatch o := windowed (abs_value o).1 fun _ _ _ => rfl
theorem acos_window (o : Nat → R) : Windowed acosBatch o := windowed (acos_value o).1 fun _ _ _ => rfl
theorem asin_window (o : Nat → R) : Windowed asinBatch o := windowed (asin_value o).1 fun _ _ _ => rfl
theorem atan_window (o : Nat → R) : Windowed atanBatch o := windowed (atan_value o).1 fun _ _ _ => rfl
theorem ceil_window (o : Nat → R) : Windowed ceilBatch o := windowed (ceil_value o).1 fun _ _ _ => rfl
theorem cos_window (o : Nat → R) : Windowed cosBatch o := windowed (cos_value o).1 fun _ _ _ => rfl
theorem cosh_window (o : Nat → R) : Windowed coshBatch o := windowed (cosh_value o).1 fun _ _ _ => rfl
theorem exp_window (o : Nat → R) : Windowed expBatch o := windowed (exp_value o).1 fun _ _ _ => rfl
theorem floor_window (o : Nat → R) : Windowed floorBatch o := windowed (floor_value o).1 fun _ _ _ => rfl
theorem ln_window (o : Nat → R) : Windowed lnBatch o := windowed (ln_value o).1 fun _ _ _ => rfl
theorem log10_window (o : Nat → R) : Windowed log10Batch o := windowed (log10_value o).1 fun _ _ _ => rfl
theorem round_window (o : Nat → R) : Windowed roundBatch o := windowed (round_value o).1 fun _ _ _ => rfl
theorem sin_window (o : Nat → R) : Windowed sinBatch o := windowed (sin_value o).1 fun _ _ _ => rfl
theorem sinh_window (o : Nat → R) : Windowed sinhBatch o := windowed (sinh_value o).1 fun _ _ _ => rfl
theorem sqrt_window (o : Nat → R) : Windowed sqrtBatch o := windowed (sqrt_value o).1 fun _ _ _ => rfl
theorem tan_window (o : Nat → R) : Windowed tanBatch o := windowed (tan_value o).1 fun _ _ _ => rfl
theorem tanh_window (o : Nat → R) : Windowed tanhBatch o := windowed (tanh_value o).1 fun _ _ _ => rfl
theorem todeg_window (o : Nat → R) : Windowed todegBatch o := windowed (todeg_value o).1 fun _ _ _ => rfl
theorem torad_window (o : Nat → R) : Windowed toradBatch o := windowed (torad_value o).1 fun _ _ _ => rfl
theorem add_window (o : Nat → R) : Windowed addBatch o := windowed (add_value o).1 fun _ _ _ => rfl
theorem sub_window (o : Nat → R) : Windowed subBatch o := windowed (sub_value o).1 fun _ _ _ => rfl
theorem mul_window (o : Nat → R) : Windowed mulBatch o := windowed (mul_value o).1 fun _ _ _ => rfl
theorem div_window (o : Nat → R) : Windowed divBatch o := windowed (div_value o).1 fun _ _ _ => rfl

/-! ### Recursive filters -/
theorem iir12_rec (b0 a1 a2 : R) (x : Nat → R) (n : Nat) : iir [b0] [a1, a2] x (n + 2) =
    a1 * iir [b0] [a1, a2] x (n + 1) + a2 * iir [b0] [a1, a2] x n + b0 * x (n + 2) := by
  simp [iir, dot, past, iirPast]; ring
theorem iir32_rec (b0 b1 b2 a1 a2 : R) (x : Nat → R) (n : Nat) : iir [b0, b1, b2] [a1, a2] x (n + 2) =
    a1 * iir [b0, b1, b2] [a1, a2] x (n + 1) + a2 * iir [b0, b1, b2] [a1, a2] x n + (b0 * x (n + 2) + b1 * x (n + 1) + b2 * x n) := by
  simp [iir, dot, past, iirPast]; ring
theorem iir43_rec (b0 b1 b2 b3 a1 a2 a3 : R) (x : Nat → R) (n : Nat) : iir [b0, b1, b2, b3] [a1, a2, a3] x (n + 3) =
    a1 * iir [b0, b1, b2, b3] [a1, a2, a3] x (n + 2) + a2 * iir [b0, b1, b2, b3] [a1, a2, a3] x (n + 1) + a3 * iir [b0, b1, b2, b3] [a1, a2, a3] x n +
      (b0 * x (n + 3) + b1 * x (n + 2) + b2 * x (n + 1) + b3 * x n) := by
  simp [iir, dot, past, iirPast]; ring

theorem iir32_five (b0 b1 b2 a1 a2 : R) (x : Nat → R) (n : Nat) : iir [b0, b1, b2] [a1, a2] x (n + 5) =
    a1 * iir [b0, b1, b2] [a1, a2] x (n + 4) + a2 * iir [b0, b1, b2] [a1, a2] x (n + 3) + (b0 * x (n + 5) + b1 * x (n + 4) + b2 * x (n + 3)) :=
  iir32_rec _ _ _ _ _ _ _
theorem iir43_five (b0 b1 b2 b3 a1 a2 a3 : R) (x : Nat → R) (n : Nat) : iir [b0, b1, b2, b3] [a1, a2, a3] x (n + 5) =
    a1 * iir [b0, b1, b2, b3] [a1, a2, a3] x (n + 4) + a2 * iir [b0, b1, b2, b3] [a1, a2, a3] x (n + 3) + a3 * iir [b0, b1, b2, b3] [a1, a2, a3] x (n + 2) +
      (b0 * x (n + 5) + b1 * x (n + 4) + b2 * x (n + 3) + b3 * x (n + 2)) :=
  iir43_rec _ _ _ _ _ _ _ _ _

section Tables
attribute [local irreducible] Cutoff.row
theorem gf2_fades (o : Nat → R) (q : Nat) (h1 : 1 ≤ q) (h2 : q ≤ 20) (hc : toInt (o 0) = .ok ((2 * q : Nat) : Int)) : Fades gf2Batch o id := by
  have hr := rows (P := fun i => Cutoff.row i 4999 10000 5001 10000 (gf2B0.getD i 0 + gf2A1.getD i 0 + gf2A2.getD i 0)
    (gf2A1.getD i 0) (gf2A2.getD i 0) 0 0 (gf2B0.getD i 0) 0 0 0 20 = true) gf2_row q h1 h2
  obtain ⟨hS, hh⟩ := Converge.row_half hr
  have hS' : ((gf2B0.getD (q - 1) 0 + gf2A1.getD (q - 1) 0 + gf2A2.getD (q - 1) 0 : Int) : R) ≠ 0 := by exact_mod_cast hS.ne'
  refine fades (gf2_value o q h1 h2 hc) _ (rateK_pos 20) (rateK_lt 20) fun x y a b h => Joins.table 20 hS hh fun n => ?_
  simp only [id, show ∀ m, m + 5 = m + 3 + 2 from fun _ => rfl, iir12_rec]
  have e := h (n + 5)
  simp only [show ∀ m, m + (n + 5) = m + n + 3 + 2 from fun _ => by omega] at e
  rw [e]
  simp only [coef_cast]
  push_cast at hS' ⊢
  field_simp
  ring
theorem bf2_fades (o : Nat → R) (h : 1 ≤ o 0) (q : Nat) (h1 : 1 ≤ q) (h2 : q ≤ 20) (hc : toInt (o 0) = .ok ((2 * q : Nat) : Int)) (s : Nat)
    (hs : bf2Start o = .ok (s : Int)) : Fades bf2Batch o id := by
  have hr := bf2_row ⟨q - 1, by omega⟩
  obtain ⟨hS, hh⟩ := Converge.row_half hr
  refine fades (bf2_value o h q h1 h2 hc s hs) _ (rateK_pos 30) (rateK_lt 30) fun x y a b h => Joins.table 30 hS hh fun n => ?_
  have sh : ∀ a k : Nat, a + n + k + s = a + (n + s) + k := fun a k => by omega
  have hn : ∀ k, x (a + (n + s) + k) = y (b + (n + s) + k) := fun k => by rw [Nat.add_assoc a, Nat.add_assoc b]; exact h _
  simp only [id, sh]
  simp only [iir32_five, coef_cast, hn]
  push_cast
  ring
theorem bf3_fades (o : Nat → R) (h : 1 ≤ o 0) (q : Nat) (h1 : 1 ≤ q) (h2 : q ≤ 20) (hc : toInt (o 0) = .ok ((2 * q : Nat) : Int)) (s : Nat)
    (hs : bf3Start o = .ok (s : Int)) : Fades bf3Batch o id := by
  have hr := bf3_row ⟨q - 1, by omega⟩
  obtain ⟨hS, hh⟩ := Converge.row_half hr
  refine fades (bf3_value o h q h1 h2 hc s hs) _ (rateK_pos 80) (rateK_lt 80) fun x y a b h => Joins.table 80 hS hh fun n => ?_
  have sh : ∀ a k : Nat, a + n + k + s = a + (n + s) + k := fun a k => by omega
  have hn : ∀ k, x (a + (n + s) + k) = y (b + (n + s) + k) := fun k => by rw [Nat.add_assoc a, Nat.add_assoc b]; exact h _
  simp only [id, sh]
  simp only [iir43_five, coef_cast, hn]
  push_cast
  ring
end Tables
/-- Partial: any other `beta` is accepted too. -/
theorem rmta_fades_partial (o : Nat → R) (p : Nat) (hc : toInt (o 0) = .ok (p : Int)) (hp : 1 ≤ p) (hb : |o 1| < 1) : Fades rmtaBatch o id := by
  have hq : 0 < (1 + |o 1|) / 2 := by positivity
  refine fades (rmta_run o p hc hp) ((1 + |o 1|) / 2) hq (by linarith) fun x y a b h => ?_
  have hg : |o 1| < (1 + |o 1|) / 2 := by linarith
  obtain ⟨off, hoff, ho⟩ : ∃ off, off = (if p = 1 then 0 else 1) ∧ off ≤ p := ⟨_, rfl, by split <;> omega⟩
  rw [← hoff]
  generalize o 1 = g at *
  have base : Joins ((1 + |g|) / 2) a b (fun n => x (off + (n - 1))) (fun n => y (off + (n - 1))) := Joins.of_eq hq 1 fun n => by
    rw [show off + (a + 1 + n - 1) = a + (off + n) by omega, show off + (b + 1 + n - 1) = b + (off + n) by omega, h]
  have hB : Joins ((1 + |g|) / 2) a b (fun n => (rmtaSt g off x n).1) (fun n => (rmtaSt g off y n).1) :=
    Joins.recursion (r := g) (k := 1) hq hg (fun n => by simp only [rmtaSt, Nat.add_sub_cancel]; push_cast; ring) (fun n => by simp only [rmtaSt, Nat.add_sub_cancel]; push_cast; ring) base
  have prev {f g' : Nat → R} (h : Joins ((1 + |g|) / 2) a b f g') : Joins ((1 + |g|) / 2) a b (fun n => f (n - 1)) (fun n => g' (n - 1)) := by
    refine Joins.of_step hq ?_
    obtain ⟨C, hC, h⟩ := h
    refine ⟨C, hC, fun n => ?_⟩
    have := h n
    rwa [← show a + 1 + n - 1 = a + n by omega, ← show b + 1 + n - 1 = b + n by omega] at this
  have hR : Joins ((1 + |g|) / 2) a b (fun n => (rmtaSt g off x n).2) (fun n => (rmtaSt g off y n).2) :=
    Joins.recursion (r := g) (k := 1 - g) hq hg (fun n => by simp only [rmtaSt, Nat.add_sub_cancel]; push_cast; ring) (fun n => by simp only [rmtaSt, Nat.add_sub_cancel]; push_cast; ring)
      ((base.mul 2).sub ((prev hB).mul (1 - g)))
  have := hR.later hq (by linarith) (p - off)
  simpa only [id, show ∀ i, i + p - off = i + (p - off) from fun i => by omega] using this

/-! ### Smoothed windows -/
theorem pfe_fades [LawfulPow R] (o : Nat → R) (p e : Nat) (hcp : toInt (o 0) = .ok (p : Int)) (hce : toInt (o 1) = .ok (e : Int)) (hp : 1 ≤ p) (he : 1 ≤ e) :
    Fades pfeBatch o id :=
  fades (pfe_value o p e hcp hce hp he) (rate (emaCoef e)) (rate_pos _) (rate_lt (emaCoef_pos e) (emaCoef_lt he)) fun x y a b h =>
    Joins.ema (rate_pos _) (lt_rate (emaCoef_pos e) (emaCoef_lt he)) (joins_same (rate_pos _) fun n => by
      simp only [polarEff, pathLength, Nat.add_assoc, h])
/-- Partial: see `mhlma_contract_partial`. -/
theorem mhlma_fades_partial [LawfulTrunc R] [LawfulRound R] (o : Nat → R) (p ma : Nat) (hcp : toInt (o 0) = .ok (p : Int)) (hcm : toInt (o 1) = .ok (ma : Int))
    (hp : 1 ≤ p) (hma : 2 ≤ ma) (hb : ma < 2147483647) : Fades mhlmaBatch o (·.sma) ∧ Fades mhlmaBatch o (·.ema) := by
  have k0 := emaCoef_pos (R := R) ma
  have k2 := emaCoef_lt (R := R) (p := ma) (by omega)
  have hq := rate_pos (emaCoef ma : R)
  have hq1 := rate_lt k0 k2
  have v := mhlma_value_partial o p ma hcp hcm hp hma hb
  have base {x y : Nat → R} {a b : Nat} (h : ∀ n, x (a + n) = y (b + n)) : Joins (rate (emaCoef ma : R)) a b (midRange p x) (midRange p y) :=
    Joins.of_eq hq p fun n => by
      have e : ∀ a : Nat, min p (a + p + n + 1) = p := fun a => by omega
      simp only [midRange, e, show ∀ a, a + p + n + 1 - p = a + (n + 1) from fun a => by omega]
      simp only [winMax, winMin, Nat.add_assoc, h]
  exact ⟨fades v _ hq hq1 fun x y a b h => (base h).window hq hq1 ma,
    fades v _ hq hq1 fun x y a b h => (Joins.ema hq (lt_rate k0 k2) (base h)).later hq hq1 (ma - 1)⟩
/-- Partial: the sums of squares are within the range of `int`. -/
theorem posc_fades_partial [LawfulTrunc R] [LawfulRound R] (o : Nat → R) (p e : Nat) (hcp : toInt (o 0) = .ok (p : Int))
    (hce : toInt (o 1) = .ok (e : Int)) (hp : 1 ≤ p) (he : 1 ≤ e) (hb : e < 2147483647)
    (hpp : p * (p + 1) * (2 * p + 1) ≤ 2147483647) : Fades poscBatch o id := by
  obtain ⟨band, h1, v⟩ := posc_value_partial o p e hcp hce hp he hb hpp
  refine fades v (rate (emaCoef e)) (rate_pos _) (rate_lt (emaCoef_pos e) (emaCoef_lt he)) fun x y a b h =>
    Joins.ema (rate_pos _) (lt_rate (emaCoef_pos e) (emaCoef_lt he)) (joins_same (rate_pos _) fun n => ?_)
  have eb : band x (a + n) = band y (b + n) := projection_unique hp (h1 _ _) fun c d hcd => by
    have e : ∀ (f : HLC R → R), projections p (fun i => f (x i)) d (a + n + (p - 1)) = projections p (fun i => f (y i)) d (b + n + (p - 1)) := fun f => by
      ext v
      simp only [projections, Set.mem_setOf_eq]
      refine exists_congr fun i => and_congr_right fun hi => ?_
      rw [show a + n + (p - 1) - i = a + (n + (p - 1) - i) by omega, show b + n + (p - 1) - i = b + (n + (p - 1) - i) by omega, h]
    rw [e HLC.high, e HLC.low]
    exact h1 y (b + n) c d fun a' b' => by simpa only [sqErr, Nat.add_assoc, h] using hcd a' b'
  simp only [eb, Nat.add_assoc, h]

/-! ### More that last for ever -/
/-- After one rise the relative momentum index stays at 100 for ever, after one fall at 0. -/
theorem rmi_fades_violates [Archimedean R] [LawfulTrunc R] [LawfulRound R] (o : Nat → R) (h0 : 1 < o 0) (h1 : o 1 = 1) : ¬ Fades rmiBatch o id :=
  not_fades_flat (rmi_value_partial o 1 h0.le (by simpa using h1) le_rfl (by norm_num)) 0 2 1 (d := 100) (by norm_num) fun n => by
    have g1 : gainOver 1 (fun i : Nat => if i = 0 then (0 : R) else 1) = fun k => if k = 0 then 1 else 0 := funext fun k => by cases k <;> simp [gainOver]
    have l1 : lossOver 1 (fun i : Nat => if i = 0 then (0 : R) else 1) = fun _ => 0 := funext fun k => by cases k <;> simp [lossOver]
    have g2 : gainOver 1 (fun i : Nat => if i = 0 then (2 : R) else 1) = fun _ => 0 := funext fun k => by cases k <;> simp [gainOver]
    have k0 : 0 < 2 / (1 + o 0) := by positivity
    have k1 : 2 / (1 + o 0) < 1 := by rw [div_lt_one (by linarith)]; linarith
    have z : ∀ n, ema (2 / (1 + o 0)) (fun _ => (0 : R)) n = 0 := fun n => by
      induction n with
      | zero => rfl
      | succ n ih => rw [ema, ih]; ring
    have pos : ∀ n, 0 < ema (2 / (1 + o 0)) (fun k : Nat => if k = 0 then (1 : R) else 0) n := fun n => by
      induction n with
      | zero => simp [ema]
      | succ n ih => rw [ema, if_neg (by omega)]; nlinarith
    simp only [relMomentum, g1, l1, g2, z, add_zero, if_neg (pos _).ne', div_self (pos _).ne', id, if_true]
    norm_num
/-- The exponential average never quite leaves an old bar behind. -/
theorem ema_window_violates (o : Nat → R) (p : Nat) (hc : toInt (o 0) = .ok (p : Int)) (hp : 2 ≤ p) : ¬ Windowed emaBatch o := fun h => by
  obtain ⟨out, h1, h2⟩ := h (pre (fun n => if n = 0 then (0 : R) else 1) 2) trivial
  have h2 := h2 1 trivial
  rw [ema_value o p hc (by omega)] at h1
  rw [show (pre (fun n => if n = 0 then (0 : R) else 1) 2).drop 1 = pre (fun _ => 1) 1 by simp [pre, List.range_succ], ema_value o p hc (by omega)] at h2
  simp only [Except.ok.injEq, Prod.mk.injEq, true_and] at h1 h2
  rw [← h1] at h2
  simp [pre, List.range_succ, ema] at h2
  have : (emaCoef p : R) < 1 := by
    have : (2 : R) ≤ p := by exact_mod_cast hp
    unfold emaCoef
    rw [div_lt_one (by linarith)]; linarith
  linarith
end

section Reals
theorem ssmooth_fades (o : Nat → ℝ) : Fades ssmoothBatch o id := by
  obtain ⟨k1, k2⟩ := ss_coefs
  rw [abs_le] at k1 k2
  have hq : |-(ssC3 : ℝ)| < 1 := abs_lt.2 ⟨by linarith [k2.2], by linarith [k2.1]⟩
  have hp : |(ssC2 : ℝ)| < 1 + -ssC3 := abs_lt.2 ⟨by linarith [k1.1, k2.2], by linarith [k1.2, k2.2]⟩
  obtain ⟨r0, r1, -, -⟩ := rate2_spec hq hp
  refine fades (ssmooth_value o) _ r0 r1 fun x y a b h => Joins.second hq hp fun n => ?_
  have hn : ∀ k, x (a + n + k) = y (b + n + k) := fun k => by rw [Nat.add_assoc a, Nat.add_assoc b]; exact h _
  simp only [id, iir2_rec, hn]
  ring
theorem rema_fades (o : Nat → ℝ) (h1 : 1 ≤ o 0) (h2 : 0 ≤ o 1) : Fades remaBatch o id := by
  obtain ⟨y, hc, hy⟩ := rema_value o h1 h2
  obtain ⟨c, hcd⟩ : ∃ c, c = 2 / (1 + o 0) := ⟨_, rfl⟩
  have c0 : 0 < c := by rw [hcd]; positivity
  have c1 : c ≤ 1 := by rw [hcd, div_le_one (by linarith)]; linarith
  have hl : 0 < 1 + o 1 := by linarith
  rw [← hcd] at hy
  have hq : |o 1 / (1 + o 1)| < 1 := by rw [abs_div, abs_of_pos hl, abs_of_nonneg h2, div_lt_one hl]; linarith
  have hp : |(1 - c + 2 * o 1) / (1 + o 1)| < 1 + o 1 / (1 + o 1) := by
    rw [abs_div, abs_of_pos hl, abs_of_nonneg (by linarith), div_lt_iff₀ hl, add_mul, div_mul_cancel₀ _ hl.ne']; linarith
  obtain ⟨r0, r1, -, -⟩ := rate2_spec hq hp
  refine fades hc _ r0 r1 fun x y' a b h => Joins.second hq hp fun n => ?_
  simp only [id]
  rw [(hy x).2.2, (hy y').2.2, show a + n + 2 = a + (n + 2) by omega, show b + n + 2 = b + (n + 2) by omega, h]
  field_simp
  ring
end Reals

/-! ### Calls that meet the assumptions -/
example : Windowed smaBatch (ropts [((20 : Nat) : ℝ)]) := sma_window _ 20 (ropts_int 20 (by norm_num) _) (by norm_num)
example : Windowed viBatch (ropts [((3 : Nat) : ℝ)]) (fun xs => 3 < xs.length) := vi_window_partial _ 3 (ropts_int 3 (by norm_num) _) (by norm_num)
example : Fades emaBatch (ropts [((20 : Nat) : ℝ)]) id := ema_fades _ 20 (ropts_int 20 (by norm_num) _) (by norm_num)
example : Fades kcBatch (opts [10, 2]) (·.upper) (fun r => r.low ≤ r.high) := (kc_fades _ (by norm_num [opts]) (by norm_num [opts])).2.2
example : Fades gf2Batch (ropts [((10 : Nat) : ℝ)]) id := gf2_fades _ 5 (by norm_num) (by norm_num) (ropts_int 10 (by norm_num) _)
example : ¬ Fades rsiBatch (ropts [((14 : Nat) : ℝ)]) id := rsi_fades_violates _ 14 (ropts_int 14 (by norm_num) _) (by norm_num)
/-- What fading means for one call: a bar of 0 before two bars of 1, or only these. -/
example : ∃ u v, emaBatch (ropts [((2 : Nat) : ℝ)]) ([0] ++ pre (fun _ => 1) 2) = .ok (.okay, u) ∧ emaBatch (ropts [((2 : Nat) : ℝ)]) (pre (fun _ => 1) 2) = .ok (.okay, v) ∧
    u.getLast? = some (8 / 9) ∧ v.getLast? = some 1 := by
  have hc := ropts_int 2 (by norm_num) []
  refine ⟨_, _, (congrArg _ (flat_pre 0 1 1)).trans (ema_value _ 2 hc (by norm_num) _ _), ema_value _ 2 hc (by norm_num) _ _, ?_, ?_⟩
  · norm_num [pre, List.range_succ, ema, emaCoef]
  · norm_num [pre, List.range_succ, ema, emaCoef]

end Verif
