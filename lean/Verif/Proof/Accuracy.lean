/- Rounding errors of single operations, of running sums and of recursive averages. -/
import Verif.Spec.Accuracy
import Verif.Proof.Doubles
import Verif.Proof.EmaField
import Verif.Spec.Ema
import Verif.Spec.Range
import Verif.Proof.Window
import Mathlib.Tactic.FieldSimp

namespace Verif
open F64
set_option linter.unusedSectionVars false
set_option exponentiation.threshold 3000

/-! ### One operation -/

theorem nearest_error {n d : Nat} (hd : 0 < d) : 2 * n ≤ 2 * (nearest n d * d) + d ∧ 2 * (nearest n d * d) ≤ 2 * n + d := by
  have e := Nat.div_add_mod n d
  have hm := Nat.mod_lt n hd
  have e1 : (n / d + 1) * d = d * (n / d) + d := by ring
  have e2 : n / d * d = d * (n / d) := by ring
  unfold nearest
  simp only
  split
  · rw [e1]; omega
  · split
    · rcases Nat.mod_two_eq_zero_or_one (n / d) with h | h <;> rw [h]
      · rw [Nat.add_zero, e2]; omega
      · rw [e1]; omega
    · rw [e2]; omega

/-- The rounded quotient, in units. -/
theorem roundNat_error {n d : Nat} (hd : 0 < d) : |(roundNat n d : ℚ) - n / d| ≤ n / d * ulp + 1 / 2 := by
  have hd' : (0 : ℚ) < d := by exact_mod_cast hd
  obtain ⟨h1, h2⟩ := nearest_error (n := n) (Nat.mul_pos hd (step_pos n d))
  have e : roundNat n d * d = nearest n (d * step n d) * (d * step n d) := by unfold roundNat; ring
  rw [← e] at h1 h2
  have h1' : 2 * (n : ℚ) ≤ 2 * (roundNat n d * d) + d * step n d := by exact_mod_cast h1
  have h2' : 2 * ((roundNat n d : ℚ) * d) ≤ 2 * n + d * step n d := by exact_mod_cast h2
  have hs : (step n d : ℚ) ≤ 2 * (n / d * ulp) + 1 := by
    have h0 : (0 : ℚ) ≤ n / d * ulp := by unfold ulp; positivity
    rcases step_cases n d hd with ⟨h, -⟩ | ⟨k, h, hk, -⟩
    · rw [h]; push_cast; linarith
    · rw [h]
      have hk' : (2 : ℚ) ^ (k + 53) * d ≤ n := by exact_mod_cast hk
      have : (2 : ℚ) ^ k ≤ n / d * ulp := by
        unfold ulp
        rw [div_mul_eq_mul_div, mul_one_div, div_div, le_div_iff₀ (by positivity)]
        calc (2 : ℚ) ^ k * (2 ^ 53 * d) = 2 ^ (k + 53) * d := by rw [pow_add]; ring
          _ ≤ n := hk'
      push_cast
      rw [pow_succ]
      linarith
  have e2 : (roundNat n d : ℚ) - n / d = (roundNat n d * d - n) / d := by field_simp
  rw [e2, abs_div, abs_of_pos hd', div_le_iff₀ hd', abs_le]
  have : (d : ℚ) * step n d ≤ d * (2 * (n / d * ulp) + 1) := mul_le_mul_of_nonneg_left hs hd'.le
  constructor <;> linarith

/-- Half of the smallest positive double. -/
def tiny : ℚ := 1 / 2 / (one : ℚ)
theorem tiny_eq : tiny = 1 / 2 ^ 1075 := by unfold tiny one; push_cast; norm_num
theorem tiny_pos : 0 < tiny := by rw [tiny_eq]; positivity
theorem ulp_pos : 0 < ulp := by unfold ulp; positivity

theorem Rounds.near [Libm] {q : ℚ} {r : F64} (h : Rounds q r) (hq : |q| ≤ 2 ^ 1023) : Near (|q| * ulp + tiny) r q := by
  obtain ⟨s, n, d, hd, rfl, rfl⟩ := h
  have hd' : (0 : ℚ) < d := by exact_mod_cast hd
  have ho := oneQ_pos
  have ha : |((units s n : Int) : ℚ)| = n := by cases s <;> simp
  have e : |((units s n : Int) : ℚ) / (d * (one : ℚ))| = n / d / one := by
    rw [abs_div, ha, abs_of_pos (by positivity), div_div]
  rw [e] at hq ⊢
  have hl : roundNat n d < limit := by
    have : n ≤ 2 ^ 2097 * d := by
      rw [div_div, div_le_iff₀ (by positivity)] at hq
      have : (n : ℚ) ≤ 2 ^ 2097 * d := hq.trans (le_of_eq (by unfold one; push_cast; rw [show (2 : ℚ) ^ 2097 = 2 ^ 1023 * 2 ^ 1074 by rw [← pow_add]]; ring))
      exact_mod_cast this
    exact lt_of_le_of_lt (roundNat_le hd (Rep.pow _) this) (by unfold limit; exact Nat.pow_lt_pow_right (by norm_num) (by norm_num))
  rw [round_def, dif_pos hl]
  refine ⟨trivial, ?_⟩
  have b := roundNat_error (n := n) hd
  have : val (fin s (roundNat n d) ⟨roundNat_rep' n d, hl⟩) - ((units s n : Int) : ℚ) / (d * (one : ℚ)) =
      (if s then -1 else 1) * (((roundNat n d : ℚ) - n / d) / one) := by
    simp only [val]
    cases s <;> simp <;> field_simp <;> ring
  rw [this, abs_mul, abs_div, abs_of_pos ho, show |(if s then -1 else 1 : ℚ)| = 1 by cases s <;> simp, one_mul, tiny, div_le_iff₀ ho]
  refine b.trans (le_of_eq ?_)
  field_simp

/-- The magnitudes for which the lemmas hold: a little more than `Ordinary`. -/
def Mid (m : ℚ) : Prop := 1 / 2 ^ 900 ≤ m ∧ m ≤ 2 ^ 910
theorem Ordinary.mid {m : ℚ} (h : Ordinary m) : Mid m := ⟨h.1, h.2.trans (pow_le_pow_right₀ (by norm_num) (by norm_num))⟩
theorem Ordinary.mid2 {m : ℚ} (h : Ordinary m) : Mid (2 * m) := by
  have h1 := h.1
  have h2 := h.2
  refine ⟨?_, ?_⟩
  · have : (0 : ℚ) < 1 / 2 ^ 900 := by positivity
    linarith
  · calc 2 * m ≤ 2 * 2 ^ 900 := mul_le_mul_of_nonneg_left h2 (by norm_num)
      _ = 2 ^ 901 := by rw [pow_succ]; ring
      _ ≤ 2 ^ 910 := pow_le_pow_right₀ (by norm_num) (by norm_num)

theorem tiny_le {m : ℚ} (hm : Mid m) : tiny ≤ 1 / 2 ^ 120 * ulp * m := by
  rw [tiny_eq]; unfold ulp
  have := hm.1
  calc (1 : ℚ) / 2 ^ 1075 ≤ 1 / 2 ^ 120 * (1 / 2 ^ 53) * (1 / 2 ^ 900) := by norm_num
    _ ≤ _ := mul_le_mul_of_nonneg_left this (by positivity)
theorem Mid.pos {m : ℚ} (hm : Mid m) : 0 < m := lt_of_lt_of_le (by positivity) hm.1

section
variable [Libm]

theorem Rounds.ordinary {m q B : ℚ} {r : F64} (h : Rounds q r) (hm : Mid m) (hq : |q| ≤ B * m) (hB : B ≤ 2 ^ 100) :
    Near ((B + 1 / 2 ^ 120) * ulp * m) r q := by
  have hq' : |q| ≤ 2 ^ 1023 := by
    refine hq.trans ((mul_le_mul hB hm.2 hm.pos.le (by positivity)).trans ?_)
    rw [← pow_add]; exact pow_le_pow_right₀ (by norm_num) (by norm_num)
  obtain ⟨f, e⟩ := Rounds.near h hq'
  refine ⟨f, e.trans ?_⟩
  have h1 := mul_le_mul_of_nonneg_right hq ulp_pos.le
  have h2 := tiny_le hm
  calc |q| * ulp + tiny ≤ B * m * ulp + 1 / 2 ^ 120 * ulp * m := add_le_add h1 h2
    _ = _ := by ring

theorem UpTo.near {m : ℚ} {x : F64} (h : UpTo m x) : Near 0 x (val x) := ⟨h.1, by simp⟩
theorem Near.mono {e e' q : ℚ} {y : F64} (h : Near e y q) (he : e ≤ e') : Near e' y q := ⟨h.1, h.2.trans he⟩
theorem Near.abs_le {e q B : ℚ} {y : F64} (h : Near e y q) (hq : |q| ≤ B) : |val y| ≤ B + e := by
  have := abs_add_le (val y - q) q
  rw [sub_add_cancel] at this
  linarith [h.2]
/-- A rounded result near an exact one whose operands had errors. -/
theorem Near.of {e1 e2 r q : ℚ} {y : F64} (h : Near e1 y r) (h2 : |r - q| ≤ e2) : Near (e1 + e2) y q :=
  ⟨h.1, by have := abs_add_le (val y - r) (r - q); rw [sub_add_sub_cancel] at this; linarith [h.2]⟩

theorem near_add {m B e e' q q' : ℚ} {a b : F64} (hm : Mid m) (ha : Near e a q) (hb : Near e' b q') (hB : |val a + val b| ≤ B * m) (h2 : B ≤ 2 ^ 100) :
    Near ((B + 1 / 2 ^ 120) * ulp * m + (e + e')) (a + b) (q + q') :=
  (Rounds.ordinary (add_rounds ha.1 hb.1) hm hB h2).of (by
    rw [show val a + val b - (q + q') = (val a - q) + (val b - q') by ring]
    exact (abs_add_le _ _).trans (add_le_add ha.2 hb.2))
theorem near_sub {m B e e' q q' : ℚ} {a b : F64} (hm : Mid m) (ha : Near e a q) (hb : Near e' b q') (hB : |val a - val b| ≤ B * m) (h2 : B ≤ 2 ^ 100) :
    Near ((B + 1 / 2 ^ 120) * ulp * m + (e + e')) (a - b) (q - q') :=
  (Rounds.ordinary (sub_rounds ha.1 hb.1) hm hB h2).of (by
    rw [show val a - val b - (q - q') = (val a - q) - (val b - q') by ring]
    exact (abs_sub _ _).trans (add_le_add ha.2 hb.2))

/-! ### One step of a recursive average -/

/-- The step `(x - y) * a + y` with a rounded weight `a`: the error `c` of the average is reproduced, where `c` is a few rounding
units divided by the weight. -/
theorem blend_near {m k c ε X Y : ℚ} {a x y : F64} (hm : Mid m) (hk0 : 1 / 2 ^ 31 ≤ k) (hk1 : k ≤ 1) (ha : Near (1001 / 1000 * k * ulp) a k)
    (hc0 : 0 ≤ c) (hc1 : c ≤ 1 / 2 ^ 20) (hc : (101 / 100 + 61 / 10 * k) * ulp ≤ k * c) (hε0 : 0 ≤ ε) (hε1 : ε ≤ 1 / 2 ^ 20)
    (hx : Near (ε * m) x X) (hX : |X| ≤ m) (hy : Near ((c + ε) * m) y Y) (hY : |Y| ≤ m) :
    Near ((c + ε) * m) ((x - y) * a + y) (Y + k * (X - Y)) := by
  have m0 := hm.pos
  have u0 := ulp_pos
  have k0 : 0 < k := lt_of_lt_of_le (by positivity) hk0
  have u1 : ulp ≤ 1 / 2 ^ 50 := by unfold ulp; norm_num
  have um : 0 < ulp * m := mul_pos u0 m0
  have km : 0 < k * m := mul_pos k0 m0
  have kum : 0 < k * (ulp * m) := mul_pos k0 um
  have cm : (c + ε) * m ≤ 1 / 2 ^ 19 * m := mul_le_mul_of_nonneg_right (by linarith) m0.le
  have em : ε * m ≤ 1 / 2 ^ 20 * m := mul_le_mul_of_nonneg_right hε1 m0.le
  have bx := hx.abs_le hX
  have by' := hy.abs_le hY
  -- the difference
  have A : |val x - val y| ≤ 20001 / 10000 * m := by
    refine (abs_sub _ _).trans ?_
    norm_num at cm em
    linarith
  have d := Rounds.ordinary (sub_rounds hx.1 hy.1) hm A (by norm_num)
  have dE : |val (x - y) - (val x - val y)| ≤ 2001 / 1000 * (ulp * m) := by
    refine d.2.trans ?_
    rw [mul_assoc]
    exact mul_le_mul_of_nonneg_right (by norm_num) um.le
  have dB : |val (x - y)| ≤ 2001 / 1000 * m := by
    have h1 := d.abs_le A
    have : ulp * m ≤ 1 / 2 ^ 50 * m := mul_le_mul_of_nonneg_right u1 m0.le
    norm_num at h1 this ⊢
    linarith
  -- the weight
  have aB : |val a| ≤ 1001 / 1000 * k := by
    have h1 := ha.abs_le (abs_of_pos k0).le
    have : k * ulp ≤ k * (1 / 2 ^ 50) := mul_le_mul_of_nonneg_left u1 k0.le
    norm_num at h1 this ⊢
    linarith
  -- the product
  have P : |val (x - y) * val a| ≤ 201 / 100 * k * m := by
    rw [abs_mul]
    calc |val (x - y)| * |val a| ≤ 2001 / 1000 * m * (1001 / 1000 * k) := mul_le_mul dB aB (abs_nonneg _) (by positivity)
      _ = 2003001 / 1000000 * (k * m) := by ring
      _ ≤ 201 / 100 * (k * m) := mul_le_mul_of_nonneg_right (by norm_num) km.le
      _ = _ := by ring
  have pr := Rounds.ordinary (mul_rounds d.1 ha.1) hm P (by linarith)
  have pE : |val ((x - y) * a) - val (x - y) * val a| ≤ 2011 / 1000 * (k * (ulp * m)) := by
    refine pr.2.trans ?_
    have : (1 : ℚ) / 2 ^ 120 ≤ 1 / 1000 * k := le_trans (by norm_num) (mul_le_mul_of_nonneg_left hk0 (by norm_num))
    calc (201 / 100 * k + 1 / 2 ^ 120) * ulp * m = (201 / 100 * k + 1 / 2 ^ 120) * (ulp * m) := by ring
      _ ≤ (2011 / 1000 * k) * (ulp * m) := mul_le_mul_of_nonneg_right (by linarith) um.le
      _ = _ := by ring
  have E : |val ((x - y) * a) - k * (val x - val y)| ≤ 602 / 100 * (k * (ulp * m)) := by
    have e1 : |val a * (val (x - y) - (val x - val y))| ≤ 2004 / 1000 * (k * (ulp * m)) := by
      rw [abs_mul]
      calc |val a| * _ ≤ 1001 / 1000 * k * (2001 / 1000 * (ulp * m)) := mul_le_mul aB dE (abs_nonneg _) (by positivity)
        _ = 2003001 / 1000000 * (k * (ulp * m)) := by ring
        _ ≤ _ := mul_le_mul_of_nonneg_right (by norm_num) kum.le
    have e2 : |(val a - k) * (val x - val y)| ≤ 2003 / 1000 * (k * (ulp * m)) := by
      rw [abs_mul]
      calc |val a - k| * _ ≤ 1001 / 1000 * k * ulp * (20001 / 10000 * m) := mul_le_mul ha.2 A (abs_nonneg _) (by positivity)
        _ = 20021001 / 10000000 * (k * (ulp * m)) := by ring
        _ ≤ _ := mul_le_mul_of_nonneg_right (by norm_num) kum.le
    have e3 := abs_add_three (val ((x - y) * a) - val (x - y) * val a) (val a * (val (x - y) - (val x - val y))) ((val a - k) * (val x - val y))
    rw [show val ((x - y) * a) - val (x - y) * val a + val a * (val (x - y) - (val x - val y)) + (val a - k) * (val x - val y) =
      val ((x - y) * a) - k * (val x - val y) by ring] at e3
    linarith
  -- the sum
  have F : |(1 - k) * val y + k * val x| ≤ 10001 / 10000 * m := by
    have h1 : |(1 - k) * val y| ≤ (1 - k) * (m + (c + ε) * m) := by rw [abs_mul, abs_of_nonneg (by linarith)]; exact mul_le_mul_of_nonneg_left by' (by linarith)
    have h2 : |k * val x| ≤ k * (m + (c + ε) * m) := by
      rw [abs_mul, abs_of_pos k0]
      exact mul_le_mul_of_nonneg_left (bx.trans (by have := mul_nonneg hc0 m0.le; linarith)) k0.le
    have h3 := abs_add_le ((1 - k) * val y) (k * val x)
    norm_num at cm
    linarith
  have S : |val ((x - y) * a) + val y| ≤ 1001 / 1000 * m := by
    have h3 := abs_add_le (val ((x - y) * a) - k * (val x - val y)) ((1 - k) * val y + k * val x)
    rw [show val ((x - y) * a) - k * (val x - val y) + ((1 - k) * val y + k * val x) = val ((x - y) * a) + val y by ring] at h3
    have : k * (ulp * m) ≤ 1 / 2 ^ 50 * m := by
      calc k * (ulp * m) ≤ 1 * (1 / 2 ^ 50 * m) := mul_le_mul hk1 (mul_le_mul_of_nonneg_right u1 m0.le) um.le (by norm_num)
        _ = _ := one_mul _
    norm_num at this
    linarith
  have r := Rounds.ordinary (add_rounds pr.1 hy.1) hm S (by norm_num)
  refine ⟨r.1, ?_⟩
  have rE : |val ((x - y) * a + y) - (val ((x - y) * a) + val y)| ≤ 10011 / 10000 * (ulp * m) := by
    refine r.2.trans ?_
    rw [mul_assoc]
    exact mul_le_mul_of_nonneg_right (by norm_num) um.le
  have y1 : |(1 - k) * (val y - Y)| ≤ (1 - k) * ((c + ε) * m) := by rw [abs_mul, abs_of_nonneg (by linarith)]; exact mul_le_mul_of_nonneg_left hy.2 (by linarith)
  have x1 : |k * (val x - X)| ≤ k * (ε * m) := by rw [abs_mul, abs_of_pos k0]; exact mul_le_mul_of_nonneg_left hx.2 k0.le
  have t1 := abs_add_three (val ((x - y) * a + y) - (val ((x - y) * a) + val y)) (val ((x - y) * a) - k * (val x - val y)) ((1 - k) * (val y - Y) + k * (val x - X))
  rw [show val ((x - y) * a + y) - (val ((x - y) * a) + val y) + (val ((x - y) * a) - k * (val x - val y)) + ((1 - k) * (val y - Y) + k * (val x - X)) =
    val ((x - y) * a + y) - (Y + k * (X - Y)) by ring] at t1
  have t2 := abs_add_le ((1 - k) * (val y - Y)) (k * (val x - X))
  have hc' := mul_le_mul_of_nonneg_right hc m0.le
  nlinarith

attribute [local irreducible] F64.ofInt F64.round F64.one F64.limit

/-! ### Weights -/

theorem weight_near {k : ℚ} {a : F64} (h : Rounds k a) (hk0 : 1 / 2 ^ 31 ≤ k) (hk1 : k ≤ 1) : Near (1001 / 1000 * k * ulp) a k := by
  have k0 : 0 < k := lt_of_lt_of_le (by positivity) hk0
  have := Rounds.near h (by rw [abs_of_pos k0]; exact hk1.trans (one_le_pow₀ (by norm_num)))
  refine this.mono ?_
  rw [abs_of_pos k0]
  have t : tiny ≤ 1 / 1000 * (1 / 2 ^ 31) * ulp := by rw [tiny_eq]; unfold ulp; norm_num
  have : 1 / 1000 * (1 / 2 ^ 31) * ulp ≤ 1 / 1000 * k * ulp := mul_le_mul_of_nonneg_right (mul_le_mul_of_nonneg_left hk0 (by norm_num)) ulp_pos.le
  linarith
theorem emaPer_near {p : Nat} (hp : 1 ≤ p) (hb : p < 2 ^ 31) : Near (1001 / 1000 * (2 / ((p : ℚ) + 1)) * ulp) (emaPer (p : Int) : F64) (2 / ((p : ℚ) + 1)) := by
  obtain ⟨f, v, h0⟩ := period_fin hp hb
  have hq : (((p + 1 : Nat) : Int)).natAbs < 2 ^ 53 := by
    rw [Int.natAbs_natCast]
    exact lt_of_le_of_lt hb (Nat.pow_lt_pow_right (by norm_num) (by norm_num))
  have fq := int_fin _ hq
  have vq := int_val _ hq
  have e1 : val (((p : Int)) : F64) + val (c! 1 : F64) = val ((((p + 1 : Nat) : Int)) : F64) := by
    rw [v, one_val, vq, Int.cast_natCast, Nat.cast_add, Nat.cast_one]
  obtain ⟨g, e⟩ := (F64.add_rounds f one_fin).exact fq e1
  rw [e1, vq, Int.cast_natCast, Nat.cast_add, Nat.cast_one] at e
  have f2 : IsFin (c! 2 : F64) := int_fin 2 (by norm_num)
  have v2 : val (c! 2 : F64) = 2 := by rw [int_val 2 (by norm_num)]; norm_num
  have p1 : (1 : ℚ) ≤ p := by exact_mod_cast hp
  have pb : (p : ℚ) + 1 ≤ 2 ^ 31 := by exact_mod_cast hb
  have r := F64.div_rounds f2 g (by rw [e]; positivity)
  rw [v2, e] at r
  rw [emaPer_def]
  refine weight_near r ?_ ((div_le_one (by positivity)).2 (by linarith))
  rw [div_le_div_iff₀ (by positivity) (by positivity)]
  linarith
theorem perOne_near {p : Nat} (hp : 1 ≤ p) (hb : p < 2 ^ 31) : Near (1001 / 1000 * (1 / (p : ℚ)) * ulp) (c! 1 / ((p : Int) : F64) : F64) (1 / (p : ℚ)) := by
  obtain ⟨f, v, h0⟩ := period_fin hp hb
  have p1 : (1 : ℚ) ≤ p := by exact_mod_cast hp
  have pb : (p : ℚ) ≤ 2 ^ 31 := by exact_mod_cast hb.le
  have r := F64.div_rounds one_fin f (by rw [v]; positivity)
  rw [one_val, v] at r
  exact weight_near r (one_div_le_one_div_of_le (by positivity) pb) ((div_le_one (by positivity)).2 p1)

/-! ### Recursive averages -/

theorem ema_abs {m k : ℚ} {X : Nat → ℚ} (k0 : 0 ≤ k) (k1 : k ≤ 1) (hX : ∀ i, |X i| ≤ m) (n : Nat) : |Spec.ema k X n| ≤ m := by
  induction n with
  | zero => exact hX 0
  | succ n ih =>
    rw [Spec.ema, show Spec.ema k X n + k * (X (n + 1) - Spec.ema k X n) = (1 - k) * Spec.ema k X n + k * X (n + 1) by ring]
    refine (abs_add_le _ _).trans ?_
    rw [abs_mul, abs_mul, abs_of_nonneg k0, abs_of_nonneg (by linarith : (0 : ℚ) ≤ 1 - k)]
    have h1 := mul_le_mul_of_nonneg_left ih (by linarith : (0 : ℚ) ≤ 1 - k)
    have h2 := mul_le_mul_of_nonneg_left (hX (n + 1)) k0
    linarith
/-- The rounding errors of a recursive average do not add up: they stay below a bound that does not depend on the number of bars. -/
theorem rec_near {m k c ε : ℚ} {a : F64} (hk0 : 1 / 2 ^ 31 ≤ k) (hk1 : k ≤ 1) (ha : Near (1001 / 1000 * k * ulp) a k)
    (hc0 : 0 ≤ c) (hc1 : c ≤ 1 / 2 ^ 20) (hc : (101 / 100 + 61 / 10 * k) * ulp ≤ k * c) {x : Nat → F64} {X : Nat → ℚ} (hm : Mid m) (hε0 : 0 ≤ ε) (hε1 : ε ≤ 1 / 2 ^ 20)
    (hx : ∀ i, Near (ε * m) (x i) (X i)) (hX : ∀ i, |X i| ≤ m) (n : Nat) : Near ((c + ε) * m) (emaRec a x n) (Spec.ema k X n) := by
  have k0 : 0 < k := lt_of_lt_of_le (by positivity) hk0
  induction n with
  | zero =>
    rw [emaRec_zero, Spec.ema]
    refine (hx 0).mono ?_
    have := mul_nonneg hc0 hm.pos.le
    linarith
  | succ n ih =>
    rw [emaRec_succ, Spec.ema]
    exact blend_near hm hk0 hk1 ha hc0 hc1 hc hε0 hε1 (hx _) (hX _) ih (ema_abs k0.le hk1 hX n)
/-- The conditions on the weight of a `p`-period average. -/
theorem emaPer_cond {p : Nat} (hp : 1 ≤ p) (hb : p < 2 ^ 31) : 1 / 2 ^ 31 ≤ 2 / ((p : ℚ) + 1) ∧ 2 / ((p : ℚ) + 1) ≤ 1 ∧
    0 ≤ ((p : ℚ) + 7) * ulp ∧ ((p : ℚ) + 7) * ulp ≤ 1 / 2 ^ 20 ∧
    (101 / 100 + 61 / 10 * (2 / ((p : ℚ) + 1))) * ulp ≤ 2 / ((p : ℚ) + 1) * ((p + 7) * ulp) := by
  have p1 : (1 : ℚ) ≤ p := by exact_mod_cast hp
  have pb : (p : ℚ) + 1 ≤ 2 ^ 31 := by exact_mod_cast hb
  have k1 : 2 / ((p : ℚ) + 1) ≤ 1 := (div_le_one (by positivity)).2 (by linarith)
  have u0 := ulp_pos
  refine ⟨by rw [div_le_div_iff₀ (by positivity) (by positivity)]; linarith, k1, by positivity, ?_, ?_⟩
  · calc ((p : ℚ) + 7) * ulp ≤ (2 ^ 31 + 6) * ulp := mul_le_mul_of_nonneg_right (by linarith) u0.le
      _ ≤ 1 / 2 ^ 20 := by unfold ulp; norm_num
  · have e : 2 / ((p : ℚ) + 1) * ((p + 7) * ulp) = (2 + 6 * (2 / ((p : ℚ) + 1))) * ulp := by field_simp; ring
    rw [e]
    exact mul_le_mul_of_nonneg_right (by linarith) u0.le
theorem emaRec_near {m ε : ℚ} {p : Nat} (hp : 1 ≤ p) (hb : p < 2 ^ 31) {x : Nat → F64} {X : Nat → ℚ} (hm : Mid m) (hε0 : 0 ≤ ε) (hε1 : ε ≤ 1 / 2 ^ 20)
    (hx : ∀ i, Near (ε * m) (x i) (X i)) (hX : ∀ i, |X i| ≤ m) (n : Nat) :
    Near (((p + 7) * ulp + ε) * m) (emaRec (emaPer (p : Int)) x n) (Spec.ema (2 / ((p : ℚ) + 1)) X n) := by
  obtain ⟨h1, h2, h3, h4, h5⟩ := emaPer_cond hp hb
  exact rec_near h1 h2 (emaPer_near hp hb) h3 h4 h5 hm hε0 hε1 hx hX n

/-! ### Sums -/

theorem near_mul {m B e e' q q' : ℚ} {a b : F64} (hm : Mid m) (ha : Near e a q) (hb : Near e' b q') (hB : |val a * val b| ≤ B * m) (h2 : B ≤ 2 ^ 100) :
    Near ((B + 1 / 2 ^ 120) * ulp * m + (|val a| * e' + |q'| * e)) (a * b) (q * q') :=
  (Rounds.ordinary (mul_rounds ha.1 hb.1) hm hB h2).of (by
    rw [show val a * val b - q * q' = val a * (val b - q') + q' * (val a - q) by ring]
    refine (abs_add_le _ _).trans ?_
    rw [abs_mul, abs_mul]
    exact add_le_add (mul_le_mul_of_nonneg_left hb.2 (abs_nonneg _)) (mul_le_mul_of_nonneg_left ha.2 (abs_nonneg _)))

theorem sum_abs {m : ℚ} {X : Nat → ℚ} (hX : ∀ i, |X i| ≤ m) (s : Finset Nat) : |∑ k ∈ s, X k| ≤ s.card * m := by
  refine (Finset.abs_sum_le_sum_abs _ _).trans ?_
  rw [← nsmul_eq_mul, ← Finset.sum_const]
  exact Finset.sum_le_sum fun k _ => hX k

theorem slide_near {m : ℚ} {p : Nat} {x : Nat → F64} (hm : Mid m) (hx : ∀ i, UpTo m (x i)) (i : Nat)
    (hi : (i : ℚ) * (2 * p + 2) ≤ 2 ^ 50) (hb : p < 2 ^ 31) :
    Near (i * (2 * p + 2) * ulp * m) (slide x p i) (∑ k ∈ Finset.Ico (i - p) i, val (x k)) := by
  have m0 := hm.pos
  have um : 0 < ulp * m := mul_pos ulp_pos m0
  have pb : (p : ℚ) ≤ 2 ^ 31 := by exact_mod_cast hb.le
  have p0 : (0 : ℚ) ≤ p := Nat.cast_nonneg _
  induction i with
  | zero => rw [slide_zero]; exact ⟨zero_fin, by rw [zero_val]; simp⟩
  | succ i ih =>
    push_cast at hi
    have i0 : (0 : ℚ) ≤ i := Nat.cast_nonneg _
    have ih := ih (by nlinarith)
    have E : (i : ℚ) * (2 * p + 2) * ulp * m ≤ 1 / 8 * m := by
      refine mul_le_mul_of_nonneg_right ?_ m0.le
      calc (i : ℚ) * (2 * p + 2) * ulp ≤ 2 ^ 50 * ulp := mul_le_mul_of_nonneg_right (by nlinarith) ulp_pos.le
        _ = 1 / 8 := by unfold ulp; norm_num
    have u8 : (2 * (p : ℚ) + 2) * (ulp * m) ≤ 1 / 8 * m := by
      calc (2 * (p : ℚ) + 2) * (ulp * m) = (2 * (p : ℚ) + 2) * ulp * m := by ring
        _ ≤ _ := by
          refine mul_le_mul_of_nonneg_right ?_ m0.le
          calc (2 * (p : ℚ) + 2) * ulp ≤ (2 * 2 ^ 31 + 2) * ulp := mul_le_mul_of_nonneg_right (by linarith) ulp_pos.le
            _ ≤ 1 / 8 := by unfold ulp; norm_num
    have S : |∑ k ∈ Finset.Ico (i - p) i, val (x k)| ≤ p * m := by
      refine (sum_abs (fun k => (hx k).2) _).trans (mul_le_mul_of_nonneg_right ?_ m0.le)
      rw [Nat.card_Ico]; exact_mod_cast (by omega : i - (i - p) ≤ p)
    have a1 := ih.abs_le S
    have A : |val (slide x p i) + val (x i)| ≤ (p + 5 / 4) * m := by
      have := abs_add_le (val (slide x p i)) (val (x i))
      have := (hx i).2
      linarith
    have n1 := near_add hm ih (hx i).near A (by linarith [show (2 : ℚ) * 2 ^ 31 + 2 ≤ 2 ^ 100 by norm_num, Nat.cast_nonneg (α := ℚ) p])
    have e1 : (((p : ℚ) + 5 / 4) + 1 / 2 ^ 120) * ulp * m ≤ (p + 13 / 10) * (ulp * m) := by
      rw [mul_assoc]; exact mul_le_mul_of_nonneg_right (by linarith [show (1 : ℚ) / 2 ^ 120 ≤ 1 / 20 by norm_num]) um.le
    rw [slide_succ]
    split
    · rename_i h
      rw [show i + 1 - p = 0 by omega, Finset.sum_Ico_succ_top (Nat.zero_le i)]
      rw [show i - p = 0 by omega] at n1
      refine n1.mono ?_
      push_cast
      nlinarith
    · rename_i h
      have e : ∑ k ∈ Finset.Ico (i - p) i, val (x k) + val (x i) - val (x (i - p)) = ∑ k ∈ Finset.Ico (i + 1 - p) (i + 1), val (x k) := by
        rw [← Finset.sum_Ico_succ_top (by omega : i - p ≤ i), Finset.sum_eq_sum_Ico_succ_bot (by omega : i - p < i + 1),
          show i - p + 1 = i + 1 - p by omega]
        ring
      have B : |val (slide x p i + x i) - val (x (i - p))| ≤ (p + 3 / 8) * m := by
        have S' : |∑ k ∈ Finset.Ico (i + 1 - p) (i + 1), val (x k)| ≤ p * m := by
          refine (sum_abs (fun k => (hx k).2) _).trans (mul_le_mul_of_nonneg_right ?_ m0.le)
          rw [Nat.card_Ico]; exact_mod_cast (by omega : i + 1 - (i + 1 - p) ≤ p)
        have t := abs_add_le (val (slide x p i + x i) - (∑ k ∈ Finset.Ico (i - p) i, val (x k) + val (x i))) (∑ k ∈ Finset.Ico (i + 1 - p) (i + 1), val (x k))
        rw [← e, show ∀ a b c d : ℚ, a - (b + c) + (b + c - d) = a - d by intros; ring, e] at t
        have := n1.2
        nlinarith
      have n2 := near_sub hm n1 (hx (i - p)).near B (by linarith [show (2 : ℚ) * 2 ^ 31 + 2 ≤ 2 ^ 100 by norm_num, Nat.cast_nonneg (α := ℚ) p])
      rw [e] at n2
      refine n2.mono ?_
      have e2 : (((p : ℚ) + 3 / 8) + 1 / 2 ^ 120) * ulp * m ≤ (p + 1 / 2) * (ulp * m) := by
        rw [mul_assoc]; exact mul_le_mul_of_nonneg_right (by linarith [show (1 : ℚ) / 2 ^ 120 ≤ 1 / 20 by norm_num]) um.le
      push_cast
      nlinarith

/-- A plain sum of at most `p` values. -/
theorem sumTo_near {m ε : ℚ} {p : Nat} {x : Nat → F64} {X : Nat → ℚ} (hm : Mid m) (hε0 : 0 ≤ ε) (hε1 : ε ≤ 1 / 2 ^ 20)
    (hx : ∀ i, Near (ε * m) (x i) (X i)) (hX : ∀ i, |X i| ≤ m) (hb : p < 2 ^ 31) (i : Nat) (hi : i ≤ p) :
    Near (i * ((11 / 10 * p * ulp + ε) * m)) (sumTo x i) (∑ k ∈ Finset.range i, X k) := by
  have m0 := hm.pos
  have um : 0 < ulp * m := mul_pos ulp_pos m0
  have pb : (p : ℚ) ≤ 2 ^ 31 := by exact_mod_cast hb.le
  induction i with
  | zero => exact ⟨zero_fin, by rw [show val (sumTo x 0) = 0 from zero_val]; simp⟩
  | succ i ih =>
    have ih := ih (by omega)
    have ip : (i : ℚ) + 1 ≤ p := by exact_mod_cast hi
    have i0 : (0 : ℚ) ≤ i := Nat.cast_nonneg _
    have S : |∑ k ∈ Finset.range i, X k| ≤ i * m := by
      refine (sum_abs hX _).trans (le_of_eq ?_); rw [Finset.card_range]
    have a1 := ih.abs_le S
    have E : (11 / 10 * (p : ℚ) * ulp + ε) * m ≤ 1 / 1000 * m := by
      refine mul_le_mul_of_nonneg_right ?_ m0.le
      have : 11 / 10 * (p : ℚ) * ulp ≤ 11 / 10 * 2 ^ 31 * ulp := mul_le_mul_of_nonneg_right (by linarith) ulp_pos.le
      have h2 : 11 / 10 * 2 ^ 31 * ulp ≤ 1 / 2 ^ 20 := by unfold ulp; norm_num
      have h3 : (1 : ℚ) / 2 ^ 20 ≤ 1 / 2000 := by norm_num
      linarith
    have E2 : (i : ℚ) * ((11 / 10 * (p : ℚ) * ulp + ε) * m) ≤ i * (1 / 1000 * m) := mul_le_mul_of_nonneg_left E i0
    have xb := (hx i).abs_le (hX i)
    have e0 : ε * m ≤ 1 / 1000 * m := mul_le_mul_of_nonneg_right (hε1.trans (by norm_num)) m0.le
    have A : |val (sumTo x i) + val (x i)| ≤ 1001 / 1000 * p * m := by
      have := abs_add_le (val (sumTo x i)) (val (x i))
      have := mul_le_mul_of_nonneg_right ip m0.le
      linarith
    have n1 := near_add hm ih (hx i) A (by linarith [show (2 : ℚ) * 2 ^ 31 + 2 ≤ 2 ^ 100 by norm_num, Nat.cast_nonneg (α := ℚ) p])
    rw [Finset.sum_range_succ]
    refine n1.mono ?_
    have e1 : (1001 / 1000 * (p : ℚ) + 1 / 2 ^ 120) * ulp * m ≤ 11 / 10 * p * (ulp * m) := by
      rw [mul_assoc]; exact mul_le_mul_of_nonneg_right (by linarith [show (1 : ℚ) / 2 ^ 120 ≤ 1 / 20 by norm_num]) um.le
    push_cast
    linarith

theorem wildersRec_near {m ε : ℚ} {p : Nat} (hp : 1 ≤ p) (hb : p < 2 ^ 31) {x : Nat → F64} {X : Nat → ℚ} (hm : Mid m) (hε0 : 0 ≤ ε) (hε1 : ε ≤ 1 / 2 ^ 20)
    (hx : ∀ i, Near (ε * m) (x i) (X i)) (hX : ∀ i, |X i| ≤ m) (n : Nat) :
    Near (((2 * p + 7) * ulp + ε) * m) (wildersRec p x n) (Spec.wilder p X n) := by
  have m0 := hm.pos
  have u0 := ulp_pos
  have um : 0 < ulp * m := mul_pos ulp_pos m0
  have p1 : (1 : ℚ) ≤ p := by exact_mod_cast hp
  have pb : (p : ℚ) ≤ 2 ^ 31 := by exact_mod_cast hb.le
  have k0 : (0 : ℚ) < 1 / p := by positivity
  have k1 : 1 / (p : ℚ) ≤ 1 := (div_le_one (by positivity)).2 p1
  have W : |Spec.winMean p X 0| ≤ m := by
    rw [Spec.winMean, Spec.winSum, abs_div, abs_of_pos (by linarith : (0 : ℚ) < p), div_le_iff₀ (by linarith)]
    refine (sum_abs (fun i => hX (0 + i)) _).trans (le_of_eq ?_)
    rw [Finset.card_range, mul_comm]
  have hX' : ∀ k, |(if k = 0 then Spec.winMean p X 0 else X (k - 1 + p))| ≤ m := fun k => by split; exacts [W, hX _]
  induction n with
  | zero =>
    obtain ⟨f, v, h0⟩ := period_fin hp hb
    have s := sumTo_near hm hε0 hε1 hx hX hb p (le_refl _)
    have S : |∑ k ∈ Finset.range p, X k| ≤ p * m := by
      refine (sum_abs hX _).trans (le_of_eq ?_); rw [Finset.card_range]
    have E : (11 / 10 * (p : ℚ) * ulp + ε) * m ≤ 1 / 1000 * m := by
      refine mul_le_mul_of_nonneg_right ?_ m0.le
      have : 11 / 10 * (p : ℚ) * ulp ≤ 11 / 10 * 2 ^ 31 * ulp := mul_le_mul_of_nonneg_right (by linarith) ulp_pos.le
      have h2 : 11 / 10 * 2 ^ 31 * ulp ≤ 1 / 2 ^ 20 := by unfold ulp; norm_num
      have h3 : (1 : ℚ) / 2 ^ 20 ≤ 1 / 2000 := by norm_num
      linarith
    have E2 : (p : ℚ) * ((11 / 10 * (p : ℚ) * ulp + ε) * m) ≤ p * (1 / 1000 * m) := mul_le_mul_of_nonneg_left E h0.le
    have a := s.abs_le S
    have A : |val (sumTo x p) / val ((p : Int) : F64)| ≤ 1001 / 1000 * m := by
      rw [v, abs_div, abs_of_pos h0, div_le_iff₀ h0]
      linarith
    have r := Rounds.ordinary (div_rounds s.1 f (by rw [v]; exact h0.ne')) hm A (by norm_num)
    have r2 := r.of (q := Spec.winMean p X 0) (e2 := (11 / 10 * (p : ℚ) * ulp + ε) * m) (by
      rw [v, Spec.winMean, Spec.winSum, ← sub_div, abs_div, abs_of_pos h0, div_le_iff₀ h0]
      simp only [Nat.zero_add]
      refine s.2.trans (le_of_eq (by ring)))
    rw [wildersRec_zero]
    have e : Spec.wilder p X 0 = Spec.winMean p X 0 := rfl
    rw [e]
    refine r2.mono ?_
    have e1 : (1001 / 1000 + 1 / 2 ^ 120) * ulp * m ≤ 2 * (ulp * m) := by
      rw [mul_assoc]; exact mul_le_mul_of_nonneg_right (by norm_num) um.le
    have e2 : 0 ≤ (p : ℚ) * (ulp * m) := by positivity
    linarith
  | succ n ih =>
    have e : Spec.wilder p X (n + 1) = Spec.wilder p X n + 1 / (p : ℚ) * (X (n + p) - Spec.wilder p X n) := rfl
    rw [wildersRec_succ, e]
    refine blend_near hm (one_div_le_one_div_of_le (by positivity) pb) k1 (perOne_near hp hb) (by positivity) ?_ ?_ hε0 hε1 (hx _) (hX _) ih (ema_abs k0.le k1 hX' n)
    · calc (2 * (p : ℚ) + 7) * ulp ≤ (2 * 2 ^ 31 + 7) * ulp := mul_le_mul_of_nonneg_right (by linarith) u0.le
        _ ≤ 1 / 2 ^ 20 := by unfold ulp; norm_num
    · have e : 1 / (p : ℚ) * ((2 * p + 7) * ulp) = (2 + 7 * (1 / (p : ℚ))) * ulp := by field_simp
      rw [e]
      exact mul_le_mul_of_nonneg_right (by linarith) u0.le

/-- A sum of `p` values times the rounded `1 / p`. -/
theorem mean_near {m E S : ℚ} {p : Nat} {a : F64} (hp : 1 ≤ p) (hb : p < 2 ^ 31) (hm : Mid m) (hE : E ≤ 2 ^ 50)
    (s : Near (E * ulp * m) a S) (hS : |S| ≤ p * m) : Near ((E / p + 3) * ulp * m) (a * (c! 1 / ((p : Int) : F64))) (S / p) := by
  have m0 := hm.pos
  have um : 0 < ulp * m := mul_pos ulp_pos m0
  have p1 : (1 : ℚ) ≤ p := by exact_mod_cast hp
  have pp : (0 : ℚ) < p := by linarith
  have w := perOne_near hp hb
  have E8 : E * ulp * m ≤ 1 / 8 * m := by
    refine mul_le_mul_of_nonneg_right ?_ m0.le
    calc E * ulp ≤ 2 ^ 50 * ulp := mul_le_mul_of_nonneg_right hE ulp_pos.le
      _ = 1 / 8 := by unfold ulp; norm_num
  have ha : |val a| ≤ 9 / 8 * p * m := by
    have := s.abs_le hS
    have := mul_le_mul_of_nonneg_right p1 m0.le
    linarith
  have b : |val (c! 1 / ((p : Int) : F64))| ≤ 1001 / 1000 * (1 / p) := by
    have h1 := w.abs_le (abs_of_pos (by positivity : (0 : ℚ) < 1 / p)).le
    have u1 : ulp ≤ 1 / 2000 := by unfold ulp; norm_num
    have : (1 / (p : ℚ)) * ulp ≤ (1 / (p : ℚ)) * (1 / 2000) := mul_le_mul_of_nonneg_left u1 (by positivity)
    have : 0 < 1 / (p : ℚ) := by positivity
    linarith
  have AB : |val a * val (c! 1 / ((p : Int) : F64))| ≤ 12 / 10 * m := by
    rw [abs_mul]
    calc _ ≤ 9 / 8 * p * m * (1001 / 1000 * (1 / p)) := mul_le_mul ha b (abs_nonneg _) (by positivity)
      _ = 9009 / 8000 * m := by field_simp; ring
      _ ≤ _ := mul_le_mul_of_nonneg_right (by norm_num) m0.le
  have n := near_mul hm s w AB (by norm_num)
  rw [show S * (1 / (p : ℚ)) = S / p by ring] at n
  refine n.mono ?_
  have e1 : (12 / 10 + 1 / 2 ^ 120) * ulp * m ≤ 13 / 10 * (ulp * m) := by
    rw [mul_assoc]; exact mul_le_mul_of_nonneg_right (by norm_num) um.le
  have e2 : |val a| * (1001 / 1000 * (1 / (p : ℚ)) * ulp) ≤ 13 / 10 * (ulp * m) := by
    calc _ ≤ 9 / 8 * p * m * (1001 / 1000 * (1 / (p : ℚ)) * ulp) := mul_le_mul_of_nonneg_right ha (by have := ulp_pos; positivity)
      _ = 9009 / 8000 * (ulp * m) := by field_simp; ring
      _ ≤ _ := mul_le_mul_of_nonneg_right (by norm_num) um.le
  have e3 : |1 / (p : ℚ)| * (E * ulp * m) = E / p * (ulp * m) := by
    rw [abs_of_pos (by positivity)]; field_simp
  rw [e3]
  linarith

theorem winSum_ico (p : Nat) (X : Nat → ℚ) (j : Nat) : ∑ k ∈ Finset.Ico (j + p - p) (j + p), X k = Spec.winSum p X j := by
  rw [Spec.winSum, Nat.add_sub_cancel, Finset.sum_Ico_eq_sum_range, Nat.add_sub_cancel_left]
theorem winSum_abs {m : ℚ} (p : Nat) {X : Nat → ℚ} (hX : ∀ i, |X i| ≤ m) (j : Nat) : |Spec.winSum p X j| ≤ p * m := by
  rw [Spec.winSum]
  refine (sum_abs (X := fun k => X (j + k)) (fun i => hX (j + i)) _).trans (le_of_eq ?_); rw [Finset.card_range]
/-- One more summand. -/
theorem plus_near {m B E S : ℚ} {a b : F64} (hm : Mid m) (hB : B ≤ 2 ^ 40) (hE : E ≤ 2 ^ 50) (s : Near (E * ulp * m) a S) (hS : |S| ≤ B * m) (hb : UpTo m b) :
    Near ((E + B + 2) * ulp * m) (a + b) (S + val b) ∧ |S + val b| ≤ (B + 1) * m := by
  have m0 := hm.pos
  have um : 0 < ulp * m := mul_pos ulp_pos m0
  have E8 : E * ulp * m ≤ 1 / 8 * m := by
    refine mul_le_mul_of_nonneg_right ?_ m0.le
    calc E * ulp ≤ 2 ^ 50 * ulp := mul_le_mul_of_nonneg_right hE ulp_pos.le
      _ = 1 / 8 := by unfold ulp; norm_num
  have h1 := s.abs_le hS
  have h2 := hb.2
  refine ⟨(near_add (B := B + 9 / 8) hm s hb.near ?_ (by linarith [show (2 : ℚ) ^ 40 + 2 ≤ 2 ^ 100 by norm_num])).mono ?_, ?_⟩
  · have := abs_add_le (val a) (val b)
    linarith
  · have e : (B + 9 / 8 + 1 / 2 ^ 120) * ulp * m ≤ (B + 2) * (ulp * m) := by
      rw [mul_assoc]; exact mul_le_mul_of_nonneg_right (by linarith [show (1 : ℚ) / 2 ^ 120 ≤ 1 / 20 by norm_num]) um.le
    linarith
  · have := abs_add_le S (val b)
    linarith
theorem UpTo.zero_near {m : ℚ} {x : F64} (h : UpTo m x) : Near (0 * ulp * m) x (val x) := ⟨h.1, by simp⟩

/-! ### True range -/

theorem Near.fabs {e q : ℚ} {y : F64} (h : Near e y q) : Near e (CMath.fabs y) |q| :=
  ⟨(fabs_fin h.1).1, by rw [(fabs_fin h.1).2]; exact (abs_abs_sub_abs_le _ _).trans h.2⟩
theorem Near.larger {e q q' : ℚ} {y z : F64} (h : Near e y q) (h' : Near e z q') : Near e (if y < z then z else y) (max q q') := by
  have a := _root_.abs_le.1 h.2
  have b := _root_.abs_le.1 h'.2
  split
  · rename_i hl
    rw [lt_iff h.1 h'.1] at hl
    refine ⟨h'.1, _root_.abs_le.2 ?_⟩
    rcases max_cases q q' with ⟨e, _⟩ | ⟨e, _⟩ <;> rw [e] <;> constructor <;> linarith
  · rename_i hl
    rw [lt_iff h.1 h'.1] at hl
    refine ⟨h.1, _root_.abs_le.2 ?_⟩
    rcases max_cases q q' with ⟨e, _⟩ | ⟨e, _⟩ <;> rw [e] <;> constructor <;> linarith
theorem diff_near {m : ℚ} {a b : F64} (hm : Mid m) (ha : UpTo m a) (hb : UpTo m b) : Near (3 * ulp * m) (a - b) (val a - val b) := by
  have um : 0 < ulp * m := mul_pos ulp_pos hm.pos
  refine (near_sub (B := 2) hm ha.near hb.near ?_ (by norm_num)).mono ?_
  · have := abs_sub (val a) (val b)
    linarith [ha.2, hb.2]
  · have : (2 + 1 / 2 ^ 120) * ulp * m ≤ 3 * (ulp * m) := by rw [mul_assoc]; exact mul_le_mul_of_nonneg_right (by norm_num) um.le
    linarith
theorem trSig_near {m : ℚ} (hm : Mid m) {x : Nat → HLC F64} (hx : ∀ i, Prices.upTo m (x i)) (i : Nat) :
    Near (3 * ulp * m) (trSig x i) (Spec.trueRange (fun i => Prices.exact (x i)) i) := by
  cases i with
  | zero =>
    have e : Spec.trueRange (fun i => Prices.exact (x i)) 0 = val (x 0).high - val (x 0).low := rfl
    rw [e]
    exact diff_near hm (hx 0).1 (hx 0).2.1
  | succ i =>
    have e : Spec.trueRange (fun i => Prices.exact (x i)) (i + 1) = max (val (x (i + 1)).high - val (x (i + 1)).low)
      (max |val (x (i + 1)).high - val (x i).close| |val (x (i + 1)).low - val (x i).close|) := rfl
    rw [e, ← max_assoc]
    have h := hx (i + 1)
    have c := (hx i).2.2
    exact ((diff_near hm h.1 h.2.1).larger (diff_near hm h.1 c).fabs).larger (diff_near hm h.2.1 c).fabs
theorem trueRange_abs {m : ℚ} {x : Nat → HLC F64} (hx : ∀ i, Prices.upTo m (x i)) (i : Nat) :
    |Spec.trueRange (fun i => Prices.exact (x i)) i| ≤ 2 * m := by
  have d : ∀ a b : F64, UpTo m a → UpTo m b → |val a - val b| ≤ 2 * m := fun a b ha hb => by
    have := abs_sub (val a) (val b)
    linarith [ha.2, hb.2]
  cases i with
  | zero =>
    have e : Spec.trueRange (fun i => Prices.exact (x i)) 0 = val (x 0).high - val (x 0).low := rfl
    rw [e]
    exact d _ _ (hx 0).1 (hx 0).2.1
  | succ i =>
    have e : Spec.trueRange (fun i => Prices.exact (x i)) (i + 1) = max (val (x (i + 1)).high - val (x (i + 1)).low)
      (max |val (x (i + 1)).high - val (x i).close| |val (x (i + 1)).low - val (x i).close|) := rfl
    rw [e]
    have h := hx (i + 1)
    have c := (hx i).2.2
    have d1 := d _ _ h.1 h.2.1
    have d2 := d _ _ h.1 c
    have d3 := d _ _ h.2.1 c
    rw [abs_le] at d1 ⊢
    exact ⟨d1.1.trans (le_max_left _ _), max_le d1.2 (max_le d2 d3)⟩

end
end Verif
