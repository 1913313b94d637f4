/- Rounding errors of the double and triple exponential averages and of further functions made of averages. -/
import Verif.Props.Accuracy
import Verif.Props.Volume

namespace Verif
open F64 Spec
set_option linter.unusedSectionVars false
set_option exponentiation.threshold 3000

section
variable [Libm]
attribute [local irreducible] F64.ofInt F64.round F64.one F64.limit

/-- The step `y * b + x * a` with rounded weights `a` and `b = 1 - a`. -/
theorem mix_near {m k c ε X Y : ℚ} {a x y : F64} (hm : Mid m) (hk0 : 1 / 2 ^ 31 ≤ k) (hk1 : k ≤ 1) (ha : Near (1001 / 1000 * k * ulp) a k)
    (hc0 : 0 ≤ c) (hc1 : c ≤ 1 / 2 ^ 20) (hc : (31 / 10 + 21 / 10 * k) * ulp ≤ k * c) (hε0 : 0 ≤ ε) (hε1 : ε ≤ 1 / 2 ^ 18)
    (hx : Near (ε * m) x X) (hX : |X| ≤ m) (hy : Near ((c + ε) * m) y Y) (hY : |Y| ≤ m) :
    Near ((c + ε) * m) (y * (c! 1 - a) + x * a) (Y + k * (X - Y)) := by
  have m0 := hm.pos
  have u0 := ulp_pos
  have k0 : 0 < k := lt_of_lt_of_le (by positivity) hk0
  have u1 : ulp ≤ 1 / 2 ^ 50 := by unfold ulp; norm_num
  have um : 0 < ulp * m := mul_pos u0 m0
  have km : 0 < k * m := mul_pos k0 m0
  have kum : 0 < k * (ulp * m) := mul_pos k0 um
  have ku : k * ulp ≤ ulp := by nlinarith
  have cm : (c + ε) * m ≤ 1 / 10000 * m := mul_le_mul_of_nonneg_right (by linarith [show (1 : ℚ) / 2 ^ 20 + 1 / 2 ^ 18 ≤ 1 / 10000 by norm_num]) m0.le
  have em : ε * m ≤ 1 / 10000 * m := mul_le_mul_of_nonneg_right (hε1.trans (by norm_num)) m0.le
  have bx : |val x| ≤ 10001 / 10000 * m := (hx.abs_le hX).trans (by linarith)
  have by' : |val y| ≤ 10001 / 10000 * m := (hy.abs_le hY).trans (by linarith)
  have ha2 := abs_le.1 ha.2
  have kul : k * ulp ≤ k * (1 / 2 ^ 50) := mul_le_mul_of_nonneg_left u1 k0.le
  have aB : |val a| ≤ 1001 / 1000 * k := by
    have h1 := ha.abs_le (abs_of_pos k0).le
    have : (1 : ℚ) / 2 ^ 50 ≤ 1 / 100000 := by norm_num
    nlinarith
  -- the second weight
  have hone : |1 - val a| ≤ 1 - k + 1 / 1000 := by
    have : |1 - val a| ≤ |1 - k| + |k - val a| := by
      have := abs_add_le (1 - k) (k - val a)
      rwa [show (1 - k) + (k - val a) = 1 - val a by ring] at this
    rw [abs_of_nonneg (by linarith : 0 ≤ 1 - k), abs_sub_comm k] at this
    have h3 : (1 : ℚ) / 2 ^ 50 ≤ 1 / 100000 := by norm_num
    have := ha.2
    nlinarith
  have rb := Rounds.near (F64.sub_rounds one_fin ha.1) (by
    rw [one_val]
    exact hone.trans ((by linarith : 1 - k + 1 / 1000 ≤ 2).trans (le_self_pow₀ (by norm_num) (by norm_num))))
  rw [one_val] at rb
  have t : tiny ≤ 1 / 1000 * ulp := by rw [tiny_eq]; unfold ulp; norm_num
  have bE : |val (c! 1 - a) - (1 - k)| ≤ 1004 / 1000 * ulp := by
    have h1 := abs_add_le (val (c! 1 - a) - (1 - val a)) (k - val a)
    rw [show val (c! 1 - a) - (1 - val a) + (k - val a) = val (c! 1 - a) - (1 - k) by ring, abs_sub_comm k] at h1
    have h2 := rb.2
    have h3 := ha.2
    have h4 := mul_le_mul_of_nonneg_right hone u0.le
    nlinarith
  have bB : |val (c! 1 - a)| ≤ 1001 / 1000 := by
    have h1 := abs_add_le (val (c! 1 - a) - (1 - k)) (1 - k)
    rw [sub_add_cancel, abs_of_nonneg (by linarith : 0 ≤ 1 - k)] at h1
    have : (1 : ℚ) / 2 ^ 50 ≤ 1 / 100000 := by norm_num
    linarith
  -- the products
  have P : |val y * val (c! 1 - a)| ≤ 1002 / 1000 * m := by
    rw [abs_mul]
    calc |val y| * |val (c! 1 - a)| ≤ 10001 / 10000 * m * (1001 / 1000) := mul_le_mul by' bB (abs_nonneg _) (by positivity)
      _ = 10011001 / 10000000 * m := by ring
      _ ≤ _ := mul_le_mul_of_nonneg_right (by norm_num) m0.le
  have n1 := Rounds.ordinary (mul_rounds hy.1 rb.1) hm P (by norm_num)
  have e1 : |val (y * (c! 1 - a)) - (1 - k) * val y| ≤ 202 / 100 * (ulp * m) := by
    have h1 := abs_add_le (val (y * (c! 1 - a)) - val y * val (c! 1 - a)) (val y * (val (c! 1 - a) - (1 - k)))
    rw [show val (y * (c! 1 - a)) - val y * val (c! 1 - a) + val y * (val (c! 1 - a) - (1 - k)) = val (y * (c! 1 - a)) - (1 - k) * val y by ring, abs_mul] at h1
    have h2 : |val y| * |val (c! 1 - a) - (1 - k)| ≤ 10001 / 10000 * m * (1004 / 1000 * ulp) := mul_le_mul by' bE (abs_nonneg _) (by positivity)
    have h3 : (1002 / 1000 + 1 / 2 ^ 120) * ulp * m ≤ 1003 / 1000 * (ulp * m) := by rw [mul_assoc]; exact mul_le_mul_of_nonneg_right (by norm_num) um.le
    have := n1.2
    linarith
  have Q : |val x * val a| ≤ 1002 / 1000 * k * m := by
    rw [abs_mul]
    calc |val x| * |val a| ≤ 10001 / 10000 * m * (1001 / 1000 * k) := mul_le_mul bx aB (abs_nonneg _) (by positivity)
      _ = 10011001 / 10000000 * (k * m) := by ring
      _ ≤ 1002 / 1000 * (k * m) := mul_le_mul_of_nonneg_right (by norm_num) km.le
      _ = _ := by ring
  have n2 := Rounds.ordinary (mul_rounds hx.1 ha.1) hm Q (by linarith [show (2 : ℚ) ≤ 2 ^ 100 by norm_num])
  have e2 : |val (x * a) - k * val x| ≤ 202 / 100 * (k * (ulp * m)) := by
    have h1 := abs_add_le (val (x * a) - val x * val a) (val x * (val a - k))
    rw [show val (x * a) - val x * val a + val x * (val a - k) = val (x * a) - k * val x by ring, abs_mul] at h1
    have h2 : |val x| * |val a - k| ≤ 10001 / 10000 * m * (1001 / 1000 * k * ulp) := mul_le_mul bx ha.2 (abs_nonneg _) (by positivity)
    have : (1 : ℚ) / 2 ^ 120 ≤ 1 / 1000 * k := le_trans (by norm_num) (mul_le_mul_of_nonneg_left hk0 (by norm_num))
    have h3 : (1002 / 1000 * k + 1 / 2 ^ 120) * ulp * m ≤ 1003 / 1000 * k * (ulp * m) := by rw [mul_assoc]; exact mul_le_mul_of_nonneg_right (by linarith) um.le
    have := n2.2
    linarith
  -- the sum
  have y1 : |(1 - k) * (val y - Y)| ≤ (1 - k) * ((c + ε) * m) := by rw [abs_mul, abs_of_nonneg (by linarith)]; exact mul_le_mul_of_nonneg_left hy.2 (by linarith)
  have x1 : |k * (val x - X)| ≤ k * (ε * m) := by rw [abs_mul, abs_of_pos k0]; exact mul_le_mul_of_nonneg_left hx.2 k0.le
  have yb : |(1 - k) * val y| ≤ (1 - k) * (10001 / 10000 * m) := by rw [abs_mul, abs_of_nonneg (by linarith)]; exact mul_le_mul_of_nonneg_left by' (by linarith)
  have xb : |k * val x| ≤ k * (10001 / 10000 * m) := by rw [abs_mul, abs_of_pos k0]; exact mul_le_mul_of_nonneg_left bx k0.le
  have uml : ulp * m ≤ 1 / 100000 * m := mul_le_mul_of_nonneg_right (u1.trans (by norm_num)) m0.le
  have kuml : k * (ulp * m) ≤ 1 / 100000 * m := by nlinarith
  have S : |val (y * (c! 1 - a)) + val (x * a)| ≤ 1001 / 1000 * m := by
    have h1 := abs_add_le (val (y * (c! 1 - a)) - (1 - k) * val y) ((1 - k) * val y)
    have h2 := abs_add_le (val (x * a) - k * val x) (k * val x)
    rw [sub_add_cancel] at h1 h2
    have := abs_add_le (val (y * (c! 1 - a))) (val (x * a))
    linarith
  have r := Rounds.ordinary (add_rounds n1.1 n2.1) hm S (by norm_num)
  refine ⟨r.1, ?_⟩
  have rE : |val (y * (c! 1 - a) + x * a) - (val (y * (c! 1 - a)) + val (x * a))| ≤ 10011 / 10000 * (ulp * m) := by
    refine r.2.trans ?_
    rw [mul_assoc]
    exact mul_le_mul_of_nonneg_right (by norm_num) um.le
  have t1 := abs_add_three (val (y * (c! 1 - a) + x * a) - (val (y * (c! 1 - a)) + val (x * a)))
    ((val (y * (c! 1 - a)) - (1 - k) * val y) + (val (x * a) - k * val x)) ((1 - k) * (val y - Y) + k * (val x - X))
  rw [show val (y * (c! 1 - a) + x * a) - (val (y * (c! 1 - a)) + val (x * a)) +
    ((val (y * (c! 1 - a)) - (1 - k) * val y) + (val (x * a) - k * val x)) + ((1 - k) * (val y - Y) + k * (val x - X)) =
    val (y * (c! 1 - a) + x * a) - (Y + k * (X - Y)) by ring] at t1
  have t2 := abs_add_le (val (y * (c! 1 - a)) - (1 - k) * val y) (val (x * a) - k * val x)
  have t3 := abs_add_le ((1 - k) * (val y - Y)) (k * (val x - X))
  have hc' := mul_le_mul_of_nonneg_right hc m0.le
  linarith

/-- A sequence of such steps, the first from the first value to itself. -/
theorem mixes_near {m ε : ℚ} {p : Nat} (hp : 1 ≤ p) (hb : p < 2 ^ 31) (hm : Mid m) (hε0 : 0 ≤ ε) (hε1 : ε ≤ 1 / 2 ^ 18) {g y : Nat → F64} {Y : Nat → ℚ}
    (h0 : g 0 = y 0 * (c! 1 - emaPer p) + y 0 * emaPer p) (hs : ∀ n, g (n + 1) = g n * (c! 1 - emaPer p) + y (n + 1) * emaPer p)
    (hy : ∀ n, Near (ε * m) (y n) (Y n)) (hY : ∀ n, |Y n| ≤ m) (n : Nat) :
    Near (((2 * p + 6) * ulp + ε) * m) (g n) (Spec.ema (emaCoef p) Y n) := by
  obtain ⟨h1, h2, -⟩ := emaPer_cond hp hb
  have u0 := ulp_pos
  have p1 : (1 : ℚ) ≤ p := by exact_mod_cast hp
  have pb : (p : ℚ) ≤ 2 ^ 31 := by exact_mod_cast hb.le
  have c0 : 0 ≤ (2 * (p : ℚ) + 6) * ulp := by positivity
  have c1 : (2 * (p : ℚ) + 6) * ulp ≤ 1 / 2 ^ 20 := by
    calc (2 * (p : ℚ) + 6) * ulp ≤ (2 * 2 ^ 31 + 6) * ulp := mul_le_mul_of_nonneg_right (by linarith) u0.le
      _ ≤ 1 / 2 ^ 20 := by unfold ulp; norm_num
  have c2 : (31 / 10 + 21 / 10 * (2 / ((p : ℚ) + 1))) * ulp ≤ 2 / ((p : ℚ) + 1) * ((2 * p + 6) * ulp) := by
    have e : 2 / ((p : ℚ) + 1) * ((2 * p + 6) * ulp) = (4 + 4 * (2 / ((p : ℚ) + 1))) * ulp := by field_simp; ring
    rw [e]
    have : 0 < 2 / ((p : ℚ) + 1) := by positivity
    exact mul_le_mul_of_nonneg_right (by linarith) u0.le
  induction n with
  | zero =>
    have e : Spec.ema (emaCoef p) Y 0 = Y 0 + 2 / ((p : ℚ) + 1) * (Y 0 - Y 0) := by rw [sub_self, mul_zero, add_zero, Spec.ema]
    rw [h0, e]
    refine mix_near hm h1 h2 (emaPer_near hp hb) c0 c1 c2 hε0 hε1 (hy 0) (hY 0) ((hy 0).mono ?_) (hY 0)
    exact mul_le_mul_of_nonneg_right (by linarith) hm.pos.le
  | succ n ih =>
    rw [hs, Spec.ema]
    exact mix_near hm h1 h2 (emaPer_near hp hb) c0 c1 c2 hε0 hε1 (hy _) (hY _) ih (ema_abs (le_trans (by positivity) h1) h2 hY n)

theorem demaE1_near {m : ℚ} {p : Nat} (hp : 1 ≤ p) (hb : p < 2 ^ 31) (hm : Mid m) {x : Nat → F64} (hx : ∀ i, UpTo m (x i)) (n : Nat) :
    Near ((2 * p + 6) * ulp * m) (demaE1 (emaPer p) (c! 1 - emaPer p) x (n + 1)) (Spec.ema (emaCoef p) (fun i => val (x i)) n) :=
  (mixes_near (g := fun n => demaE1 (emaPer p) (c! 1 - emaPer p) x (n + 1)) (y := x) hp hb hm (le_refl 0) (by norm_num) rfl (fun _ => rfl)
    (fun i => by rw [zero_mul]; exact (hx i).near) (fun i => (hx i).2) n).mono (le_of_eq (by ring))
theorem emaCoef_abs {m : ℚ} {p : Nat} (hp : 1 ≤ p) (hb : p < 2 ^ 31) {X : Nat → ℚ} (hX : ∀ i, |X i| ≤ m) (n : Nat) : |Spec.ema (emaCoef p) X n| ≤ m := by
  obtain ⟨h1, h2, -⟩ := emaPer_cond hp hb
  exact ema_abs (le_trans (by positivity) h1) h2 hX n
theorem eps_le {p : Nat} (hb : p < 2 ^ 31) : 0 ≤ (2 * (p : ℚ) + 6) * ulp ∧ (2 * (p : ℚ) + 6) * ulp ≤ 1 / 2 ^ 20 := by
  have u0 := ulp_pos
  have pb : (p : ℚ) ≤ 2 ^ 31 := by exact_mod_cast hb.le
  refine ⟨by positivity, ?_⟩
  calc (2 * (p : ℚ) + 6) * ulp ≤ (2 * 2 ^ 31 + 6) * ulp := mul_le_mul_of_nonneg_right (by linarith) u0.le
    _ ≤ 1 / 2 ^ 20 := by unfold ulp; norm_num
theorem demaE2_succ (z a a1 : F64) (p : Nat) (x : Nat → F64) (i : Nat) : demaE2 z a a1 p x (i + 1) =
    if p - 1 ≤ i then (if i = p - 1 then demaE1 a a1 x (i + 1) else demaE2 z a a1 p x i) * a1 + demaE1 a a1 x (i + 1) * a
    else (if i = p - 1 then demaE1 a a1 x (i + 1) else demaE2 z a a1 p x i) := rfl
theorem temaE3_succ (z a a1 : F64) (p : Nat) (x : Nat → F64) (i : Nat) : temaE3 z a a1 p x (i + 1) =
    if (p - 1) * 2 ≤ i then (if i = (p - 1) * 2 then demaE2 z a a1 p x (i + 1) else temaE3 z a a1 p x i) * a1 + demaE2 z a a1 p x (i + 1) * a
    else (if i = (p - 1) * 2 then demaE2 z a a1 p x (i + 1) else temaE3 z a a1 p x i) := rfl
theorem demaE2_near {m : ℚ} {p : Nat} (hp : 1 ≤ p) (hb : p < 2 ^ 31) (hm : Mid m) {x : Nat → F64} (hx : ∀ i, UpTo m (x i)) (z : F64) (n : Nat) :
    Near (2 * (2 * p + 6) * ulp * m) (demaE2 z (emaPer p) (c! 1 - emaPer p) p x (n + (p - 1) + 1))
      (Spec.ema (emaCoef p) (shift (p - 1) (Spec.ema (emaCoef p) (fun i => val (x i)))) n) := by
  obtain ⟨a, b⟩ := eps_le hb
  refine (mixes_near (g := fun n => demaE2 z (emaPer p) (c! 1 - emaPer p) p x (n + (p - 1) + 1)) (y := fun n => demaE1 (emaPer p) (c! 1 - emaPer p) x (n + (p - 1) + 1))
    hp hb hm a (b.trans (by norm_num)) ?_ (fun n => ?_) (fun i => demaE1_near hp hb hm hx _) (fun i => emaCoef_abs hp hb (fun i => (hx i).2) _) n).mono (le_of_eq (by ring))
  · beta_reduce
    rw [demaE2_succ, if_pos (by omega), if_pos (by omega)]
  · beta_reduce
    rw [show n + 1 + (p - 1) + 1 = n + 1 + (p - 1) + 1 from rfl, demaE2_succ, if_pos (by omega), if_neg (by omega),
      show n + 1 + (p - 1) = n + (p - 1) + 1 by omega]
theorem temaE3_near {m : ℚ} {p : Nat} (hp : 1 ≤ p) (hb : p < 2 ^ 31) (hm : Mid m) {x : Nat → F64} (hx : ∀ i, UpTo m (x i)) (z : F64) (n : Nat) :
    Near (3 * (2 * p + 6) * ulp * m) (temaE3 z (emaPer p) (c! 1 - emaPer p) p x (n + (p - 1) * 2 + 1))
      (Spec.ema (emaCoef p) (shift (p - 1) (Spec.ema (emaCoef p) (shift (p - 1) (Spec.ema (emaCoef p) (fun i => val (x i)))))) n) := by
  obtain ⟨a, b⟩ := eps_le hb
  refine (mixes_near (ε := 2 * ((2 * (p : ℚ) + 6) * ulp)) (g := fun n => temaE3 z (emaPer p) (c! 1 - emaPer p) p x (n + (p - 1) * 2 + 1))
    (y := fun n => demaE2 z (emaPer p) (c! 1 - emaPer p) p x (n + (p - 1) * 2 + 1))
    hp hb hm (by linarith) (by linarith [show 2 * ((1 : ℚ) / 2 ^ 20) ≤ 1 / 2 ^ 18 by norm_num]) ?_ (fun n => ?_) (fun i => ?_)
    (fun i => emaCoef_abs hp hb (fun i => emaCoef_abs hp hb (fun i => (hx i).2) _) _) n).mono (le_of_eq (by ring))
  · beta_reduce
    rw [temaE3_succ, if_pos (by omega), if_pos (by omega)]
  · beta_reduce
    rw [temaE3_succ, if_pos (by omega), if_neg (by omega), show n + 1 + (p - 1) * 2 = n + (p - 1) * 2 + 1 by omega]
  · have := demaE2_near hp hb hm hx z (i + (p - 1))
    rw [show i + (p - 1) + (p - 1) + 1 = i + (p - 1) * 2 + 1 by omega] at this
    exact this.mono (le_of_eq (by ring))

/-- Times a small whole number. -/
theorem times_near {m E S : ℚ} {a b : F64} {k : Nat} (hk : 1 ≤ k) (hk' : k ≤ 8) (hm : Mid m) (hE : E ≤ 2 ^ 40) (s : Near (E * ulp * m) a S) (hS : |S| ≤ m)
    (hb : Near 0 b k) : Near ((k * E + k + 1) * ulp * m) (a * b) (S * k) := by
  have m0 := hm.pos
  have um : 0 < ulp * m := mul_pos ulp_pos m0
  have k1 : (1 : ℚ) ≤ k := by exact_mod_cast hk
  have k8 : (k : ℚ) ≤ 8 := by exact_mod_cast hk'
  have vb : val b = k := by have := hb.2; rw [abs_nonpos_iff] at this; linarith
  have E8 : E * ulp * m ≤ 1 / 100 * m := by
    refine mul_le_mul_of_nonneg_right ?_ m0.le
    calc E * ulp ≤ 2 ^ 40 * ulp := mul_le_mul_of_nonneg_right hE ulp_pos.le
      _ ≤ 1 / 100 := by unfold ulp; norm_num
  have ha := s.abs_le hS
  refine (near_mul (B := k * (101 / 100)) hm s hb ?_ (by linarith [show (9 : ℚ) ≤ 2 ^ 100 by norm_num])).mono ?_
  · rw [vb, abs_mul, abs_of_pos (by linarith : (0 : ℚ) < k), mul_comm]
    rw [mul_assoc]
    exact mul_le_mul_of_nonneg_left (by linarith) (by linarith)
  · rw [abs_of_pos (by linarith : (0 : ℚ) < k), mul_zero, zero_add]
    have : ((k : ℚ) * (101 / 100) + 1 / 2 ^ 120) * ulp * m ≤ (k + 1) * (ulp * m) := by
      rw [mul_assoc]; exact mul_le_mul_of_nonneg_right (by linarith [show (1 : ℚ) / 2 ^ 120 ≤ 1 / 20 by norm_num]) um.le
    linarith
theorem times_near' {m E S : ℚ} {a b : F64} {k : Nat} (hk : 1 ≤ k) (hk' : k ≤ 8) (hm : Mid m) (hE : E ≤ 2 ^ 40) (s : Near (E * ulp * m) a S) (hS : |S| ≤ m)
    (hb : Near 0 b k) : Near ((k * E + k + 1) * ulp * m) (b * a) (k * S) := by
  have m0 := hm.pos
  have um : 0 < ulp * m := mul_pos ulp_pos m0
  have k1 : (1 : ℚ) ≤ k := by exact_mod_cast hk
  have k8 : (k : ℚ) ≤ 8 := by exact_mod_cast hk'
  have vb : val b = k := by have := hb.2; rw [abs_nonpos_iff] at this; linarith
  have E8 : E * ulp * m ≤ 1 / 100 * m := by
    refine mul_le_mul_of_nonneg_right ?_ m0.le
    calc E * ulp ≤ 2 ^ 40 * ulp := mul_le_mul_of_nonneg_right hE ulp_pos.le
      _ ≤ 1 / 100 := by unfold ulp; norm_num
  have ha := s.abs_le hS
  refine (near_mul (B := k * (101 / 100)) hm hb s ?_ (by linarith [show (9 : ℚ) ≤ 2 ^ 100 by norm_num])).mono ?_
  · rw [vb, abs_mul, abs_of_pos (by linarith : (0 : ℚ) < k)]
    rw [mul_assoc]
    exact mul_le_mul_of_nonneg_left (by linarith) (by linarith)
  · rw [vb, abs_of_pos (by linarith : (0 : ℚ) < k), mul_zero, add_zero]
    have : ((k : ℚ) * (101 / 100) + 1 / 2 ^ 120) * ulp * m ≤ (k + 1) * (ulp * m) := by
      rw [mul_assoc]; exact mul_le_mul_of_nonneg_right (by linarith [show (1 : ℚ) / 2 ^ 120 ≤ 1 / 20 by norm_num]) um.le
    linarith
theorem int_near (n : Nat) (h : n < 2 ^ 53) : Near 0 (((n : Int)) : F64) n :=
  ⟨int_fin _ (by omega), by rw [int_val _ (by omega)]; simp⟩

/-- Differences and sums of accurate values. -/
theorem minus_near {m c d X Y A B : ℚ} {a b : F64} (hm : Mid m) (hc : c ≤ 2 ^ 44) (hd : d ≤ 2 ^ 44) (hA : |X| ≤ A * m) (hB : |Y| ≤ B * m) (hA' : A ≤ 2 ^ 40) (hB' : B ≤ 2 ^ 40)
    (ha : Near (c * ulp * m) a X) (hb : Near (d * ulp * m) b Y) : Near ((c + d + (A + B + 1)) * ulp * m) (a - b) (X - Y) := by
  have m0 := hm.pos
  have um : 0 < ulp * m := mul_pos ulp_pos m0
  have u : 2 ^ 44 * ulp * m ≤ 1 / 4 * m := mul_le_mul_of_nonneg_right (by unfold ulp; norm_num) m0.le
  have h1 : c * ulp * m ≤ 2 ^ 44 * ulp * m := by rw [mul_assoc, mul_assoc]; exact mul_le_mul_of_nonneg_right hc um.le
  have h2 : d * ulp * m ≤ 2 ^ 44 * ulp * m := by rw [mul_assoc, mul_assoc]; exact mul_le_mul_of_nonneg_right hd um.le
  refine (near_sub (B := A + B + 1 / 2) hm ha hb ?_ (by linarith [show (2 : ℚ) ^ 40 + 2 ^ 40 + 1 ≤ 2 ^ 100 by norm_num])).mono ?_
  · have := abs_sub (val a) (val b)
    have := ha.abs_le hA
    have := hb.abs_le hB
    linarith
  · have : (A + B + 1 / 2 + 1 / 2 ^ 120) * ulp * m ≤ (A + B + 1) * (ulp * m) := by
      rw [mul_assoc]; exact mul_le_mul_of_nonneg_right (by linarith [show (1 : ℚ) / 2 ^ 120 ≤ 1 / 2 by norm_num]) um.le
    linarith
theorem add_near {m c d X Y A B : ℚ} {a b : F64} (hm : Mid m) (hc : c ≤ 2 ^ 44) (hd : d ≤ 2 ^ 44) (hA : |X| ≤ A * m) (hB : |Y| ≤ B * m) (hA' : A ≤ 2 ^ 40) (hB' : B ≤ 2 ^ 40)
    (ha : Near (c * ulp * m) a X) (hb : Near (d * ulp * m) b Y) : Near ((c + d + (A + B + 1)) * ulp * m) (a + b) (X + Y) := by
  have m0 := hm.pos
  have um : 0 < ulp * m := mul_pos ulp_pos m0
  have u : 2 ^ 44 * ulp * m ≤ 1 / 4 * m := mul_le_mul_of_nonneg_right (by unfold ulp; norm_num) m0.le
  have h1 : c * ulp * m ≤ 2 ^ 44 * ulp * m := by rw [mul_assoc, mul_assoc]; exact mul_le_mul_of_nonneg_right hc um.le
  have h2 : d * ulp * m ≤ 2 ^ 44 * ulp * m := by rw [mul_assoc, mul_assoc]; exact mul_le_mul_of_nonneg_right hd um.le
  refine (near_add (B := A + B + 1 / 2) hm ha hb ?_ (by linarith [show (2 : ℚ) ^ 40 + 2 ^ 40 + 1 ≤ 2 ^ 100 by norm_num])).mono ?_
  · have := abs_add_le (val a) (val b)
    have := ha.abs_le hA
    have := hb.abs_le hB
    linarith
  · have : (A + B + 1 / 2 + 1 / 2 ^ 120) * ulp * m ≤ (A + B + 1) * (ulp * m) := by
      rw [mul_assoc]; exact mul_le_mul_of_nonneg_right (by linarith [show (1 : ℚ) / 2 ^ 120 ≤ 1 / 2 by norm_num]) um.le
    linarith

/-- dema: `8 p + 31` rounding units, however many bars have been read.
Partial: periods for which `(p - 1) * 2` overflows are left out. -/
theorem dema_accurate_partial (o : Nat → F64) (p : Nat) (hc : toInt (o 0) = .ok (p : Int)) (hp : 1 ≤ p) (hb : (p - 1) * 2 ≤ 2147483647) :
    Accurate demaBatch o ((p - 1) * 2) (fun X j => 2 * Spec.ema (emaCoef p) X (j + (p - 1) * 2) -
      Spec.ema (emaCoef p) (shift (p - 1) (Spec.ema (emaCoef p) X)) (j + (p - 1))) (fun _ => 8 * p + 31) :=
  accurate_of (dema_run o p hc hp hb) fun m hm x hx j _ => by
    have hr := toInt_range hc
    have hb' : p < 2 ^ 31 := by omega
    have pb : (p : ℚ) ≤ 2 ^ 31 := by exact_mod_cast hb'.le
    have l : 100 * (2 : ℚ) ^ 31 + 1000 ≤ 2 ^ 40 := by norm_num
    have l' : (2 : ℚ) ^ 40 ≤ 2 ^ 44 := by norm_num
    have hX := fun i => (hx i).2
    have e1 := demaE1_near hp hb' hm.mid hx (j + (p - 1) * 2)
    have e2 := demaE2_near hp hb' hm.mid hx (x 0) (j + (p - 1))
    rw [show j + (p - 1) + (p - 1) + 1 = j + (p - 1) * 2 + 1 by omega] at e2
    have h1 := emaCoef_abs hp hb' hX (j + (p - 1) * 2)
    have h2 := emaCoef_abs hp hb' (X := shift (p - 1) (Spec.ema (emaCoef p) (fun i => val (x i)))) (fun i => emaCoef_abs hp hb' hX _) (j + (p - 1))
    have t := times_near (k := 2) (by norm_num) (by norm_num) hm.mid (by linarith) e1 h1 (int_near 2 (by norm_num))
    have d := minus_near (A := 2) (B := 1) hm.mid (by push_cast; linarith) (by linarith)
      (by rw [abs_mul]; push_cast; rw [abs_of_pos (by norm_num : (0 : ℚ) < 2)]; linarith) (by rw [one_mul]; exact h2) (by norm_num) (by norm_num) t e2
    rw [mul_comm _ (((2 : Nat)) : ℚ)] at d
    exact d.mono (le_of_eq (by push_cast; ring))

/-- tema: `24 p + 95` rounding units, however many bars have been read.
Partial: periods for which `(p - 1) * 3` overflows are left out. -/
theorem tema_accurate_partial (o : Nat → F64) (p : Nat) (hc : toInt (o 0) = .ok (p : Int)) (hp : 1 ≤ p) (hb : (p - 1) * 3 ≤ 2147483647) :
    Accurate temaBatch o ((p - 1) * 3) (fun X j => 3 * Spec.ema (emaCoef p) X (j + (p - 1) * 3) -
      3 * Spec.ema (emaCoef p) (shift (p - 1) (Spec.ema (emaCoef p) X)) (j + (p - 1) * 2) +
      Spec.ema (emaCoef p) (shift (p - 1) (Spec.ema (emaCoef p) (shift (p - 1) (Spec.ema (emaCoef p) X)))) (j + (p - 1))) (fun _ => 24 * p + 95) :=
  accurate_of (tema_run o p hc hp hb) fun m hm x hx j _ => by
    have hr := toInt_range hc
    have hb' : p < 2 ^ 31 := by omega
    have pb : (p : ℚ) ≤ 2 ^ 31 := by exact_mod_cast hb'.le
    have l : 100 * (2 : ℚ) ^ 31 + 1000 ≤ 2 ^ 40 := by norm_num
    have l' : (2 : ℚ) ^ 40 ≤ 2 ^ 44 := by norm_num
    have m0 := hm.mid.pos
    have hX := fun i => (hx i).2
    have e1 := demaE1_near hp hb' hm.mid hx (j + (p - 1) * 3)
    have e2 := demaE2_near hp hb' hm.mid hx (c! 0) (j + (p - 1) * 2)
    rw [show j + (p - 1) * 2 + (p - 1) + 1 = j + (p - 1) * 3 + 1 by omega] at e2
    have e3 := temaE3_near hp hb' hm.mid hx (c! 0) (j + (p - 1))
    rw [show j + (p - 1) + (p - 1) * 2 + 1 = j + (p - 1) * 3 + 1 by omega] at e3
    have h1 := emaCoef_abs hp hb' hX (j + (p - 1) * 3)
    have h2 := emaCoef_abs hp hb' (X := shift (p - 1) (Spec.ema (emaCoef p) (fun i => val (x i)))) (fun i => emaCoef_abs hp hb' hX _) (j + (p - 1) * 2)
    have h3 := emaCoef_abs hp hb' (X := shift (p - 1) (Spec.ema (emaCoef p) (shift (p - 1) (Spec.ema (emaCoef p) (fun i => val (x i))))))
      (fun i => emaCoef_abs hp hb' (fun i => emaCoef_abs hp hb' hX _) _) (j + (p - 1))
    have t1 := times_near' (k := 3) (by norm_num) (by norm_num) hm.mid (by linarith) e1 h1 (int_near 3 (by norm_num))
    have t2 := times_near' (k := 3) (by norm_num) (by norm_num) hm.mid (by linarith) e2 h2 (int_near 3 (by norm_num))
    have b3 : ∀ a : ℚ, |a| ≤ m → |((3 : Nat) : ℚ) * a| ≤ 3 * m := fun a ha => by
      rw [abs_mul]; push_cast; rw [abs_of_pos (by norm_num : (0 : ℚ) < 3)]; linarith
    have d := minus_near (A := 3) (B := 3) hm.mid (by push_cast; linarith) (by push_cast; linarith) (b3 _ h1) (b3 _ h2) (by norm_num) (by norm_num) t1 t2
    have s := add_near (A := 6) (B := 1) hm.mid (by push_cast; linarith) (by linarith)
      ((abs_sub _ _).trans (by linarith [b3 _ h1, b3 _ h2])) (by rw [one_mul]; exact h3) (by norm_num) (by norm_num) d e3
    exact s.mono (le_of_eq (by push_cast; ring))

/-- dpo: as the running mean, and three more units.
Partial: periods 1 and 2, at which dpo reads before its input (C42), are left out. -/
theorem dpo_accurate_partial (o : Nat → F64) (p : Nat) (hc : toInt (o 0) = .ok (p : Int)) (hp : 3 ≤ p) :
    Accurate dpoBatch o (p - 1) (fun X j => X (j + (p - 1) - (p / 2 + 1)) - winMean p X j) (fun j => (j + p) * (2 * p + 2) / p + 6)
      (fun j => (j + p) * (2 * p + 2) ≤ 2 ^ 43) :=
  accurate_of (dpo_run o p hc hp) fun m hm x hx j hj => by
    have hb := toInt_range hc
    have p1 : (1 : ℚ) ≤ p := by exact_mod_cast (by omega : 1 ≤ p)
    have hj' : ((j + p : Nat) : ℚ) * (2 * p + 2) ≤ 2 ^ 43 := by exact_mod_cast hj
    have hj2 : ((j + p : Nat) : ℚ) * (2 * p + 2) ≤ 2 ^ 50 := hj'.trans (by norm_num)
    have s := slide_near (p := p) hm.mid hx (j + p) hj2 (by omega)
    rw [winSum_ico] at s
    have n := mean_near (by omega) (by omega) hm.mid hj2 s (winSum_abs p (fun i => (hx i).2) j)
    have E1 : ((j + p : Nat) : ℚ) * (2 * p + 2) / p ≤ 2 ^ 43 := (div_le_self (by positivity) p1).trans hj'
    have hμ : |winSum p (fun i => val (x i)) j / p| ≤ 1 * m := by
      rw [one_mul, abs_div, abs_of_pos (by linarith : (0 : ℚ) < p), div_le_iff₀ (by linarith), mul_comm m]; exact winSum_abs p (fun i => (hx i).2) j
    have d := minus_near (A := 1) (B := 1) hm.mid (by norm_num) (by linarith [show (2 : ℚ) ^ 43 + 3 ≤ 2 ^ 44 by norm_num])
      (by rw [one_mul]; exact (hx (j + (p - 1) - (p / 2 + 1))).2) hμ (by norm_num) (by norm_num) (UpTo.zero_near (hx (j + (p - 1) - (p / 2 + 1)))) n
    push_cast at d
    exact d.mono (le_of_eq (by ring))

example := dema_accurate_partial (opt1 14) 14 opt14 (by decide) (by decide) _ (ordinary_of 106 (by norm_num) (by norm_num)) waveD waveD_upTo 500
example := tema_accurate_partial (opt1 14) 14 opt14 (by decide) (by decide) _ (ordinary_of 106 (by norm_num) (by norm_num)) waveD waveD_upTo 500
example := dpo_accurate_partial (opt1 14) 14 opt14 (by decide) _ (ordinary_of 106 (by norm_num) (by norm_num)) waveD waveD_upTo 500
end
end Verif
