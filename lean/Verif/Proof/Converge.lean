/-
Sequences in an Archimedean ordered field that approach a limit.
-/
import Verif.Spec.Converge
import Verif.Spec.Contract
import Verif.Spec.Ema
import Verif.Proof.Cutoff
import Mathlib.Algebra.Order.Archimedean.Basic
import Mathlib.Tactic.Linarith
import Mathlib.Tactic.Ring
import Mathlib.Tactic.Positivity
import Mathlib.Tactic.FieldSimp
import Mathlib.Tactic.LinearCombination
import Mathlib.Analysis.Complex.Norm

namespace Verif.Converge
open Spec
set_option linter.unusedSectionVars false
variable {R ρ ω : Type} [Field R] [LinearOrder R] [IsStrictOrderedRing R]

def Tends (f : Nat → R) (L : R) : Prop := ∀ ε, 0 < ε → ∃ n0, ∀ n, n0 ≤ n → |f n - L| ≤ ε

theorem Tends.of_rests {f : Nat → R} {c : R} (h : Rests f c) : Tends f c := fun ε hε => by
  obtain ⟨m, h⟩ := h
  exact ⟨m, fun n hn => by rw [h n hn, sub_self, abs_zero]; exact hε.le⟩
theorem Tends.const (c : R) : Tends (fun _ => c) c := .of_rests ⟨0, fun _ _ => rfl⟩
theorem Tends.comp {f : Nat → R} {L : R} (h : Tends f L) (k : Nat → Nat) (hk : ∀ n, n ≤ k n) : Tends (fun n => f (k n)) L := fun ε hε => by
  obtain ⟨m, h⟩ := h ε hε
  exact ⟨m, fun n hn => h _ (hn.trans (hk n))⟩
theorem Tends.shift {f : Nat → R} {L : R} (h : Tends f L) (k : Nat) : Tends (fun n => f (n + k)) L := h.comp _ fun n => by omega
/-- The first values do not matter. -/
theorem Tends.of_shift {f : Nat → R} {L : R} (k : Nat) (h : Tends (fun n => f (n + k)) L) : Tends f L := fun ε hε => by
  obtain ⟨m, h⟩ := h ε hε
  exact ⟨m + k, fun n hn => by have := h (n - k) (by omega); simpa only [show n - k + k = n by omega] using this⟩
theorem Tends.congr {f g : Nat → R} {L : R} (h : Tends f L) (k : Nat) (e : ∀ n, k ≤ n → g n = f n) : Tends g L := fun ε hε => by
  obtain ⟨m, h⟩ := h ε hε
  exact ⟨m + k, fun n hn => by rw [e n (by omega)]; exact h n (by omega)⟩

theorem Tends.add {f g : Nat → R} {L M : R} (hf : Tends f L) (hg : Tends g M) : Tends (fun n => f n + g n) (L + M) := fun ε hε => by
  obtain ⟨m, hf⟩ := hf (ε / 2) (by positivity)
  obtain ⟨k, hg⟩ := hg (ε / 2) (by positivity)
  refine ⟨m + k, fun n hn => ?_⟩
  have := hf n (by omega)
  have := hg n (by omega)
  rw [show f n + g n - (L + M) = (f n - L) + (g n - M) by ring]
  refine (abs_add_le _ _).trans ?_
  linarith
theorem Tends.mul_const {f : Nat → R} {L : R} (hf : Tends f L) (a : R) : Tends (fun n => a * f n) (a * L) := fun ε hε => by
  obtain ⟨m, hf⟩ := hf (ε / (|a| + 1)) (by positivity)
  refine ⟨m, fun n hn => ?_⟩
  have h := hf n hn
  rw [le_div_iff₀ (by positivity)] at h
  rw [← mul_sub, abs_mul]
  have := abs_nonneg (f n - L)
  linarith
theorem Tends.sub {f g : Nat → R} {L M : R} (hf : Tends f L) (hg : Tends g M) : Tends (fun n => f n - g n) (L - M) := by
  have := hf.add (hg.mul_const (-1))
  simpa only [neg_one_mul, ← sub_eq_add_neg] using this
theorem Tends.abs_le_imp {f g : Nat → R} (hf : Tends f 0) (k : Nat) (h : ∀ n, k ≤ n → |g n| ≤ |f n|) : Tends g 0 := fun ε hε => by
  obtain ⟨m, hf⟩ := hf ε hε
  refine ⟨m + k, fun n hn => ?_⟩
  have h1 := hf n (by omega)
  have h2 := h n (by omega)
  rw [sub_zero] at *
  exact h2.trans h1
/-- A quotient: numerator to 0, denominator to something else. -/
theorem Tends.div {f g : Nat → R} {M : R} (hf : Tends f 0) (hg : Tends g M) (hM : M ≠ 0) : Tends (fun n => f n / g n) 0 := by
  have hM' : 0 < |M| := abs_pos.2 hM
  obtain ⟨m, hg⟩ := hg (|M| / 2) (by positivity)
  have h := hf.mul_const (2 / |M|)
  rw [mul_zero] at h
  refine h.abs_le_imp m fun n hn => ?_
  have h1 := hg n hn
  have h2 : |M| ≤ |g n - M| + |g n| := by
    have := abs_sub (g n) (g n - M)
    rw [show g n - (g n - M) = M by ring] at this
    linarith
  have h3 : |M| / 2 ≤ |g n| := by linarith
  rw [abs_div, abs_mul, abs_of_pos (show 0 < 2 / |M| by positivity), div_le_iff₀ (by linarith)]
  have := mul_le_mul_of_nonneg_left h3 (show 0 ≤ 2 / |M| * |f n| by positivity)
  refine le_trans (le_of_eq ?_) this
  field_simp

/-- A contraction with a disturbance that dies out. -/
theorem contract [Archimedean R] {e w : Nat → R} {q : R} (q0 : 0 ≤ q) (q1 : q < 1) (k : Nat) (h : ∀ n, k ≤ n → |e (n + 1)| ≤ q * |e n| + |w n|) (hw : Tends w 0) :
    Tends e 0 := fun ε hε => by
  obtain ⟨m, hm⟩ := hw (ε * (1 - q) / 2) (by have : 0 < 1 - q := by linarith
                                             positivity)
  obtain ⟨E, hE⟩ : ∃ E, E = |e (m + k)| := ⟨_, rfl⟩
  have hE0 : 0 ≤ E := hE ▸ abs_nonneg _
  have key : ∀ i, |e (m + k + i)| ≤ q ^ i * E + ε / 2 := by
    intro i
    induction i with
    | zero => rw [Nat.add_zero, ← hE, pow_zero, one_mul]; linarith
    | succ i ih =>
      have h1 := h (m + k + i) (by omega)
      have h2 := hm (m + k + i) (by omega)
      rw [sub_zero] at h2
      have h3 := mul_le_mul_of_nonneg_left ih q0
      rw [show m + k + (i + 1) = m + k + i + 1 by omega, pow_succ]
      linarith
  obtain ⟨i, hi⟩ := exists_pow_lt_of_lt_one (show 0 < ε / 2 / (E + 1) by positivity) q1
  refine ⟨m + k + i, fun n hn => ?_⟩
  have h1 := key (n - (m + k))
  rw [show m + k + (n - (m + k)) = n by omega] at h1
  have h2 : q ^ (n - (m + k)) ≤ q ^ i := pow_le_pow_of_le_one q0 q1.le (by omega)
  rw [lt_div_iff₀ (by positivity)] at hi
  have h3 := mul_le_mul_of_nonneg_right h2 hE0
  have h4 : 0 ≤ q ^ i := pow_nonneg q0 i
  rw [sub_zero]
  linarith

/-- A first-order recursion. -/
theorem first [Archimedean R] {f v : Nat → R} {r V : R} (hr : |r| < 1) (h : ∀ n, f (n + 1) = r * f n + v n) (hv : Tends v V) :
    Tends f (V / (1 - r)) := by
  have h1 : 1 - r ≠ 0 := by have := (abs_lt.1 hr).2; intro h; linarith
  have e : Tends (fun n => f n - V / (1 - r)) 0 := by
    refine contract (w := fun n => v n - V) (abs_nonneg r) hr 0 (fun n _ => ?_) ?_
    · rw [h n, show r * f n + v n - V / (1 - r) = r * (f n - V / (1 - r)) + (v n - V) by field_simp; ring, ← abs_mul]
      exact abs_add_le _ _
    · have := hv.sub (.const V); rwa [sub_self] at this
  have := e.add (.const (V / (1 - r)))
  simpa only [sub_add_cancel, zero_add] using this

theorem ema [Archimedean R] {a : R} (h0 : 0 < a) (h2 : a < 2) {x : Nat → R} {c : R} (hx : Tends x c) : Tends (Spec.ema a x) c := by
  have := first (f := Spec.ema a x) (v := fun n => a * x (n + 1)) (r := 1 - a) (abs_lt.2 ⟨by linarith, by linarith⟩)
    (fun n => by rw [Spec.ema]; ring) ((hx.shift 1).mul_const a)
  rwa [show 1 - (1 - a) = a by ring, mul_div_cancel_left₀ _ h0.ne'] at this

theorem emaCoef_pos (p : Nat) : (0 : R) < emaCoef p := by unfold emaCoef; positivity
theorem emaCoef_lt (p : Nat) (hp : 1 ≤ p) : (emaCoef p : R) < 2 := by
  have : (1 : R) ≤ p := by exact_mod_cast hp
  unfold emaCoef
  rw [div_lt_iff₀ (by positivity)]; linarith

theorem wilder [Archimedean R] (p : Nat) (hp : 1 ≤ p) {x : Nat → R} {c : R} (hx : Tends x c) : Tends (Spec.wilder p x) c := by
  have hp' : (1 : R) ≤ p := by exact_mod_cast hp
  refine ema (by positivity) (by rw [div_lt_iff₀ (by linarith)]; linarith) (.of_shift 1 ?_)
  exact (hx.shift p).congr 0 fun n _ => by rw [if_neg (by omega), Nat.add_sub_cancel]

/-- A recursion over at most four outputs and bars that dies out without input. -/
theorem table' {S a1 a2 a3 a4 b0 b1 b2 b3 : R}
    (hdec : ∀ z : Nat → R, (∀ n, S * z (n + 4) = a1 * z (n + 3) + a2 * z (n + 2) + a3 * z (n + 1) + a4 * z n) → Tends z 0) {g : R}
    (hg : g * (S - a1 - a2 - a3 - a4) = b0 + b1 + b2 + b3) {x y : Nat → R}
    (hy : ∀ n, S * y (n + 5) = b0 * x (n + 5) + b1 * x (n + 4) + b2 * x (n + 3) + b3 * x (n + 2)
        + a1 * y (n + 4) + a2 * y (n + 3) + a3 * y (n + 2) + a4 * y (n + 1)) {c : R} (hx : Rests x c) : Tends y (g * c) := by
  obtain ⟨m, hx⟩ := hx
  have h := hdec (fun n => y (n + m + 1) - g * c) fun n => by
    have := hy (n + m)
    rw [hx (n + m + 5) (by omega), hx (n + m + 4) (by omega), hx (n + m + 3) (by omega), hx (n + m + 2) (by omega)] at this
    rw [show n + 4 + m + 1 = n + m + 5 by omega, show n + 3 + m + 1 = n + m + 4 by omega, show n + 2 + m + 1 = n + m + 3 by omega,
      show n + 1 + m + 1 = n + m + 2 by omega]
    linear_combination this - c * hg
  have := h.add (.const (g * c))
  simp only [sub_add_cancel, zero_add] at this
  exact .of_shift (m + 1) this

theorem table [Archimedean R] {S a1 a2 a3 a4 : Int} (K : Nat) (hS : 0 < S) (hc : Gain.half S a1 a2 a3 a4 K a1 a2 a3 a4 S = true) {b0 b1 b2 b3 : R} {g : R}
    (hg : g * (S - a1 - a2 - a3 - a4) = b0 + b1 + b2 + b3) {x y : Nat → R}
    (hy : ∀ n, (S : R) * y (n + 5) = b0 * x (n + 5) + b1 * x (n + 4) + b2 * x (n + 3) + b3 * x (n + 2)
        + a1 * y (n + 4) + a2 * y (n + 3) + a3 * y (n + 2) + a4 * y (n + 1)) {c : R} (hx : Rests x c) : Tends y (g * c) :=
  table' (fun z hz ε hε => by simpa only [sub_zero] using Gain.decays K hS hc hz ε hε) hg hy hx

theorem row_half {i : Nat} {ln ld hn hd S a1 a2 a3 a4 b0 b1 b2 b3 : Int} {K : Nat} (hc : Cutoff.row i ln ld hn hd S a1 a2 a3 a4 b0 b1 b2 b3 K = true) :
    0 < S ∧ Gain.half S a1 a2 a3 a4 K a1 a2 a3 a4 S = true := by
  simp only [Cutoff.row, Bool.and_eq_true, decide_eq_true_eq] at hc
  exact hc.1.1.1

/-- From the values to the calls. -/
theorem approaches {batch : (Nat → R) → List ρ → M (Ret × List ω)} {o : Nat → R} {s : Nat} {y : Nat → ω} {x : Nat → ρ} {val : ω → R} {L : R} (k : Nat)
    (hc : ∀ N, k ≤ N → batch o (pre x N) = .ok (.okay, pre y (N - s))) (h : Tends (fun n => val (y n)) L) : Approaches batch o s x val L := fun ε hε => by
  obtain ⟨n0, h⟩ := h ε hε
  refine ⟨n0 + k, fun N hN => ⟨_, hc N (by omega), by simp [pre], fun j v hj hv => ?_⟩⟩
  simp only [pre, List.getElem?_map, Option.map_eq_some_iff] at hv
  obtain ⟨i, hi, rfl⟩ := hv
  have : i = j := by
    have := List.getElem?_eq_some_iff.1 hi
    obtain ⟨_, e⟩ := this
    simpa using e.symm
  subst this
  exact h i (by omega)

theorem follows {batch : (Nat → R) → List R → M (Ret × List R)} {o : Nat → R} {s : Nat} {y : (Nat → R) → Nat → R} {g : R}
    (hc : Computes batch o s y) (h : ∀ x c, Rests x c → Tends (y x) (g * c)) : Follows batch o s g :=
  fun x c hx => approaches 0 (fun N _ => hc x N) (h x c hx)

/-- A quotient. -/
theorem Tends.quot {f g : Nat → R} {L M : R} (hf : Tends f L) (hg : Tends g M) (hM : M ≠ 0) : Tends (fun n => f n / g n) (L / M) := by
  have h := ((hf.mul_const M).sub (hg.mul_const L))
  rw [mul_comm M L, sub_self] at h
  have h1 := (h.div (hg.mul_const M) (mul_ne_zero hM hM)).add (.const (L / M))
  rw [zero_add] at h1
  obtain ⟨k, hk⟩ := hg (|M| / 2) (by have := abs_pos.2 hM; positivity)
  refine h1.congr k fun n hn => ?_
  have : g n ≠ 0 := fun e => by
    have := hk n hn
    have h2 := abs_pos.2 hM
    rw [e, zero_sub, abs_neg] at this
    linarith
  field_simp
  ring

/-- Each value is smaller than all of the `m` before it, by a factor below one. -/
theorem windowed [Archimedean R] {e : Nat → R} {q : R} (q0 : 0 ≤ q) (q1 : q < 1) (m : Nat)
    (h : ∀ n W, (∀ i, i < m → |e (n + i)| ≤ W) → |e (n + m)| ≤ q * W) : Tends e 0 := fun ε hε => by
  obtain ⟨W, hW0, hW⟩ : ∃ W, 0 ≤ W ∧ ∀ n, n < m + 1 → |e n| ≤ W := by
    generalize m + 1 = m
    induction m with
    | zero => exact ⟨0, le_rfl, fun n hn => by omega⟩
    | succ m ih =>
      obtain ⟨W, h0, h1⟩ := ih
      refine ⟨W + |e m|, by positivity, fun n hn => ?_⟩
      rcases Nat.lt_succ_iff_lt_or_eq.1 hn with hn | rfl
      · have := h1 n hn; have := abs_nonneg (e m); linarith
      · linarith
  have pw : ∀ k n, k * (m + 1) ≤ n → |e n| ≤ q ^ k * W := by
    intro k
    induction k with
    | zero =>
      intro n _
      rw [pow_zero, one_mul]
      induction n using Nat.strong_induction_on with
      | _ n ih =>
        by_cases hn : n < m + 1
        · exact hW n hn
        · have := h (n - m) W fun i hi => ih _ (by omega) (by omega)
          rw [show n - m + m = n by omega] at this
          have h2 := mul_le_mul_of_nonneg_right q1.le hW0
          linarith
    | succ k ih =>
      intro n hn
      rw [Nat.add_mul, Nat.one_mul] at hn
      have := h (n - m) (q ^ k * W) fun i hi => ih _ (by omega)
      rw [show n - m + m = n by omega] at this
      rw [pow_succ]
      linarith
  obtain ⟨k, hk⟩ := exists_pow_lt_of_lt_one (show 0 < ε / (W + 1) by positivity) q1
  refine ⟨k * (m + 1), fun n hn => ?_⟩
  have := pw k n hn
  rw [lt_div_iff₀ (by positivity)] at hk
  rw [sub_zero]
  have : 0 ≤ q ^ k := pow_nonneg q0 k
  linarith

/-- Second order with complex poles. -/
theorem pair {z v : Nat → ℝ} {a c V : ℝ} (h0 : 0 < a) (h1 : a < 1) (hc : c ^ 2 < 1) (hz : ∀ n, z (n + 2) = 2 * a * c * z (n + 1) - a ^ 2 * z n + v n)
    (hv : Tends v V) : Tends z (V / (1 - 2 * a * c + a ^ 2)) := by
  have hD : 0 < 1 - 2 * a * c + a ^ 2 := by nlinarith [sq_nonneg (1 - a * c), sq_nonneg (a * c), mul_pos (mul_pos h0 h0) (sub_pos.2 hc)]
  obtain ⟨L, hL⟩ : ∃ L, L = V / (1 - 2 * a * c + a ^ 2) := ⟨_, rfl⟩
  have hL' : L * (1 - 2 * a * c + a ^ 2) = V := by rw [hL]; field_simp
  rw [← hL]
  obtain ⟨s, hs⟩ : ∃ s, s = Real.sqrt (1 - c ^ 2) := ⟨_, rfl⟩
  have hs0 : 0 < s := hs ▸ Real.sqrt_pos.2 (by linarith)
  have hs2 : s ^ 2 = 1 - c ^ 2 := by rw [hs, Real.sq_sqrt (by linarith)]
  let p : ℂ := ⟨a * c, a * s⟩
  let u : Nat → ℂ := fun n => ((z (n + 1) - L : ℝ) : ℂ) - p * ((z n - L : ℝ) : ℂ)
  have hp : ‖(⟨a * c, -(a * s)⟩ : ℂ)‖ = a := by
    rw [Complex.norm_def, Complex.normSq_mk, show a * c * (a * c) + -(a * s) * -(a * s) = a ^ 2 by linear_combination a ^ 2 * hs2]
    exact Real.sqrt_sq h0.le
  have hu : ∀ n, u (n + 1) = ⟨a * c, -(a * s)⟩ * u n + ((v n - V : ℝ) : ℂ) := by
    intro n
    apply Complex.ext
    · simp only [u, p, Complex.sub_re, Complex.mul_re, Complex.ofReal_re, Complex.ofReal_im, Complex.add_re, Complex.sub_im, Complex.mul_im]
      rw [hz n, ← hL']
      linear_combination (a ^ 2 * (z n - L)) * hs2
    · simp only [u, p, Complex.sub_re, Complex.mul_re, Complex.ofReal_re, Complex.ofReal_im, Complex.add_im, Complex.sub_im, Complex.mul_im]
      ring
  have t : Tends (fun n => ‖u n‖) 0 := by
    refine contract (w := fun n => v n - V) h0.le h1 0 (fun n _ => ?_) (by have := hv.sub (.const V); rwa [sub_self] at this)
    rw [abs_of_nonneg (norm_nonneg _), abs_of_nonneg (norm_nonneg _), hu n]
    refine (norm_add_le _ _).trans ?_
    rw [norm_mul, hp, Complex.norm_real, Real.norm_eq_abs]
  have t2 := t.mul_const (1 / (a * s))
  rw [mul_zero] at t2
  have t3 : Tends (fun n => z n - L) 0 := by
    refine t2.abs_le_imp 0 fun n _ => ?_
    have : |(u n).im| ≤ ‖u n‖ := Complex.abs_im_le_norm _
    have e : (u n).im = -(a * s) * (z n - L) := by
      simp only [u, p, Complex.sub_im, Complex.mul_im, Complex.ofReal_re, Complex.ofReal_im]; ring
    have has : 0 < a * s := mul_pos h0 hs0
    rw [e, abs_mul, abs_neg, abs_of_pos has] at this
    rw [abs_mul, abs_of_pos (by positivity : 0 < 1 / (a * s)), abs_of_nonneg (norm_nonneg _), one_div, ← div_eq_inv_mul, le_div_iff₀ has]
    linarith
  have := t3.add (.const L)
  simpa only [sub_add_cancel, zero_add] using this

/-- Second order, poles inside the unit circle. -/
theorem second {z v : Nat → ℝ} {p q V : ℝ} (hq : q < 1) (hp : |p| < 1 + q) (hz : ∀ n, z (n + 2) = p * z (n + 1) - q * z n + v n) (hv : Tends v V) :
    Tends z (V / (1 - p + q)) := by
  obtain ⟨hp1, hp2⟩ := abs_lt.1 hp
  rcases lt_or_ge (p ^ 2) (4 * q) with hd | hd
  · have q0 : 0 < q := by nlinarith [sq_nonneg p]
    obtain ⟨a, ha⟩ : ∃ a, a = Real.sqrt q := ⟨_, rfl⟩
    have a0 : 0 < a := ha ▸ Real.sqrt_pos.2 q0
    have a2 : a ^ 2 = q := by rw [ha, Real.sq_sqrt q0.le]
    have a1 : a < 1 := by nlinarith
    have := pair (c := p / (2 * a)) a0 a1 (by rw [div_pow, div_lt_one (by positivity)]; nlinarith) (z := z) (v := v) (V := V) (fun n => by
      rw [hz n, ← a2]; field_simp) hv
    rwa [show 2 * a * (p / (2 * a)) = p by field_simp, a2] at this
  · obtain ⟨d, hd'⟩ : ∃ d, d = Real.sqrt (p ^ 2 - 4 * q) := ⟨_, rfl⟩
    have d0 : 0 ≤ d := hd' ▸ Real.sqrt_nonneg _
    have d2 : d ^ 2 = p ^ 2 - 4 * q := by rw [hd', Real.sq_sqrt (by linarith)]
    have hp3 : |p| < 2 := by rw [abs_lt]; constructor <;> linarith
    obtain ⟨hp4, hp5⟩ := abs_lt.1 hp3
    have b1 : d < 2 - p := by nlinarith
    have b2 : d < 2 + p := by nlinarith
    have r1 : |(p + d) / 2| < 1 := abs_lt.2 ⟨by linarith, by linarith⟩
    have r2 : |(p - d) / 2| < 1 := abs_lt.2 ⟨by linarith, by linarith⟩
    have w := first (f := fun n => z (n + 1) - (p + d) / 2 * z n) (v := v) (r := (p - d) / 2) r2 (fun n => by
      rw [show n + 1 + 1 = n + 2 by omega, hz n]; linear_combination (-(z n) / 4) * d2) hv
    have := first (f := z) (r := (p + d) / 2) r1 (fun n => by ring) w
    have e1 : 1 - (p - d) / 2 ≠ 0 := by intro h; linarith
    have e2 : 1 - (p + d) / 2 ≠ 0 := by intro h; linarith
    have e : (1 - (p - d) / 2) * (1 - (p + d) / 2) = 1 - p + q := by linear_combination (-1 / 4) * d2
    rwa [div_div, e] at this
end Verif.Converge
