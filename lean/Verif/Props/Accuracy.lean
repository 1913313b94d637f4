/- How far the values computed with doubles are from the exact ones.  The averages with a recursion keep a bound that does not depend
on the number of bars; the functions with a running sum lose a little with every bar and never get it back. -/
import Verif.Spec.Accuracy
import Verif.Proof.Accuracy
import Verif.Core.Eval
import Verif.Spec.Witness
import Verif.Spec.DoubleData
import Verif.Props.Bars
import Verif.Props.Ema
import Verif.Props.Window
import Verif.Props.Doubles
import Verif.Model.Stats
import Verif.Props.Stats

namespace Verif
open F64 Spec
set_option linter.unusedSectionVars false

section
variable [Libm]
attribute [local irreducible] F64.ofInt F64.round F64.one F64.limit

theorem accurate_of {I J Ω : Type} [Prices I J] {get : Ω → F64} {batch : (Nat → F64) → List I → M (Ret × List Ω)} {o : Nat → F64} {s : Nat}
    {y : (Nat → I) → Nat → Ω} {exact : (Nat → J) → Nat → ℚ} {c : Nat → ℚ} {when : Nat → Prop} (h : Computes batch o s y)
    (hn : ∀ m, Ordinary m → ∀ x : Nat → I, (∀ i, Prices.upTo m (x i)) → ∀ j, when j →
      Near (c j * ulp * m) (get (y x j)) (exact (fun i => Prices.exact (x i)) j)) : AccurateAt get batch o s exact c when :=
  fun m hm x hx N => ⟨y x, h x N, hn m hm x hx⟩

/-! ### Single bars -/

/-- mom: three rounding units. -/
theorem mom_accurate (o : Nat → F64) (p : Nat) (hc : toInt (o 0) = .ok (p : Int)) (hp : 1 ≤ p) :
    Accurate momBatch o p (fun X j => X (j + p) - X j) (fun _ => 3) :=
  accurate_of (mom_run o p hc hp) fun _ hm _ hx _ _ => diff_near hm.mid (hx _) (hx _)

/-- medprice: five rounding units. -/
theorem medprice_accurate (o : Nat → F64) : Accurate medpriceBatch o 0 (fun X j => ((X j).high + (X j).low) / 2) (fun _ => 5) :=
  accurate_of (medprice_run o) fun m hm x hx j _ => by
    have h := hx j
    obtain ⟨n1, b1⟩ := plus_near (B := 1) hm.mid (by norm_num) (by norm_num) h.1.zero_near (by rw [one_mul]; exact h.1.2) h.2
    have n := mean_near (p := 2) (by norm_num) (by norm_num) hm.mid (by norm_num) n1 (by norm_num at b1 ⊢; exact b1)
    simp only [Nat.cast_ofNat] at n
    refine n.mono ?_
    rw [mul_assoc, mul_assoc]
    exact mul_le_mul_of_nonneg_right (by norm_num) (mul_pos ulp_pos hm.mid.pos).le
/-- typprice: six rounding units. -/
theorem typprice_accurate (o : Nat → F64) : Accurate typpriceBatch o 0 (fun X j => ((X j).high + (X j).low + (X j).close) / 3) (fun _ => 6) :=
  accurate_of (typprice_run o) fun m hm x hx j _ => by
    have h := hx j
    obtain ⟨n1, b1⟩ := plus_near (B := 1) hm.mid (by norm_num) (by norm_num) h.1.zero_near (by rw [one_mul]; exact h.1.2) h.2.1
    obtain ⟨n2, b2⟩ := plus_near hm.mid (by norm_num) (by norm_num) n1 b1 h.2.2
    have n := mean_near (p := 3) (by norm_num) (by norm_num) hm.mid (by norm_num) n2 (by norm_num at b2 ⊢; exact b2)
    simp only [Nat.cast_ofNat] at n
    refine n.mono ?_
    rw [mul_assoc, mul_assoc]
    exact mul_le_mul_of_nonneg_right (by norm_num) (mul_pos ulp_pos hm.mid.pos).le
/-- avgprice: six rounding units. -/
theorem avgprice_accurate (o : Nat → F64) :
    Accurate avgpriceBatch o 0 (fun X j => ((X j).open + (X j).high + (X j).low + (X j).close) / 4) (fun _ => 6) :=
  accurate_of (avgprice_run o) fun m hm x hx j _ => by
    have h := hx j
    obtain ⟨n1, b1⟩ := plus_near (B := 1) hm.mid (by norm_num) (by norm_num) h.1.zero_near (by rw [one_mul]; exact h.1.2) h.2.1
    obtain ⟨n2, b2⟩ := plus_near hm.mid (by norm_num) (by norm_num) n1 b1 h.2.2.1
    obtain ⟨n3, b3⟩ := plus_near hm.mid (by norm_num) (by norm_num) n2 b2 h.2.2.2
    have n := mean_near (p := 4) (by norm_num) (by norm_num) hm.mid (by norm_num) n3 (by norm_num at b3 ⊢; exact b3)
    simp only [Nat.cast_ofNat] at n
    refine n.mono ?_
    rw [mul_assoc, mul_assoc]
    exact mul_le_mul_of_nonneg_right (by norm_num) (mul_pos ulp_pos hm.mid.pos).le
/-- wcprice: six rounding units. -/
theorem wcprice_accurate (o : Nat → F64) :
    Accurate wcpriceBatch o 0 (fun X j => ((X j).high + (X j).low + 2 * (X j).close) / 4) (fun _ => 6) :=
  accurate_of (wcprice_run o) fun m hm x hx j _ => by
    have h := hx j
    obtain ⟨n1, b1⟩ := plus_near (B := 1) hm.mid (by norm_num) (by norm_num) h.1.zero_near (by rw [one_mul]; exact h.1.2) h.2.1
    obtain ⟨n2, b2⟩ := plus_near hm.mid (by norm_num) (by norm_num) n1 b1 h.2.2
    obtain ⟨n3, b3⟩ := plus_near hm.mid (by norm_num) (by norm_num) n2 b2 h.2.2
    have n := mean_near (p := 4) (by norm_num) (by norm_num) hm.mid (by norm_num) n3 (by norm_num at b3 ⊢; exact b3)
    simp only [Nat.cast_ofNat] at n
    have e : val (x j).high + val (x j).low + val (x j).close + val (x j).close = val (x j).high + val (x j).low + 2 * val (x j).close := by ring
    rw [e] at n
    refine n.mono ?_
    rw [mul_assoc, mul_assoc]
    exact mul_le_mul_of_nonneg_right (by norm_num) (mul_pos ulp_pos hm.mid.pos).le
/-- tr: three rounding units. -/
theorem tr_accurate (o : Nat → F64) : Accurate trBatch o 0 Spec.trueRange (fun _ => 3) :=
  accurate_of (tr_run o) fun _ hm _ hx j _ => trSig_near hm.mid hx j

/-! ### Recursive averages: the error does not grow with the number of bars -/

/-- ema: `p + 7` rounding units, however many bars have been read. -/
theorem ema_accurate (o : Nat → F64) (p : Nat) (hc : toInt (o 0) = .ok (p : Int)) (hp : 1 ≤ p) :
    Accurate emaBatch o 0 (Spec.ema (emaCoef p)) (fun _ => p + 7) :=
  accurate_of (ema_run o p hc hp) fun m hm x hx j _ => by
    have hb := toInt_range hc
    refine (emaRec_near hp (by omega) hm.mid (le_refl 0) (by norm_num) (fun i => ?_) (fun i => (hx i).2) j).mono (le_of_eq (by ring))
    rw [zero_mul]; exact (hx i).near
/-- wilders: `2 p + 7` rounding units, however many bars have been read. -/
theorem wilders_accurate (o : Nat → F64) (p : Nat) (hc : toInt (o 0) = .ok (p : Int)) (hp : 1 ≤ p) :
    Accurate wildersBatch o (p - 1) (Spec.wilder p) (fun _ => 2 * p + 7) :=
  accurate_of (wilders_run o p hc hp) fun m hm x hx j _ => by
    have hb := toInt_range hc
    refine (wildersRec_near hp (by omega) hm.mid (le_refl 0) (by norm_num) (fun i => ?_) (fun i => (hx i).2) j).mono (le_of_eq (by ring))
    rw [zero_mul]; exact (hx i).near
/-- atr: `4 p + 17` rounding units, however many bars have been read. -/
theorem atr_accurate (o : Nat → F64) (p : Nat) (hc : toInt (o 0) = .ok (p : Int)) (hp : 1 ≤ p) :
    Accurate atrBatch o (p - 1) (fun X => Spec.wilder p (Spec.trueRange X)) (fun _ => 4 * p + 17) :=
  accurate_of (atr_run o p hc hp) fun m hm x hx j _ => by
    have hb := toInt_range hc
    refine (wildersRec_near (ε := 3 / 2 * ulp) hp (by omega) hm.mid2 (by have := ulp_pos; positivity) (by unfold ulp; norm_num)
      (fun i => (trSig_near hm.mid hx i).mono (le_of_eq (by ring))) (fun i => trueRange_abs hx i) j).mono (le_of_eq (by ring))

/-- The difference of two averages of the prices. -/
theorem line_near {m c d X Y : ℚ} {a b : F64} (hm : Mid m) (hc : c ≤ 2 ^ 33) (hd : d ≤ 2 ^ 33) (ha : Near (c * ulp * m) a X) (hb : Near (d * ulp * m) b Y)
    (hX : |X| ≤ m) (hY : |Y| ≤ m) : Near ((c + d + 3) * ulp * m) (a - b) (X - Y) := by
  have m0 := hm.pos
  have um : 0 < ulp * m := mul_pos ulp_pos m0
  have u : 2 ^ 33 * ulp * m ≤ 1 / 8 * m := mul_le_mul_of_nonneg_right (by unfold ulp; norm_num) m0.le
  have h1 : c * ulp * m ≤ 2 ^ 33 * ulp * m := by rw [mul_assoc, mul_assoc]; exact mul_le_mul_of_nonneg_right hc um.le
  have h2 : d * ulp * m ≤ 2 ^ 33 * ulp * m := by rw [mul_assoc, mul_assoc]; exact mul_le_mul_of_nonneg_right hd um.le
  refine (near_sub (B := 5 / 2) hm ha hb ?_ (by norm_num)).mono ?_
  · have := abs_sub (val a) (val b)
    have := ha.abs_le hX
    have := hb.abs_le hY
    linarith
  · have : (5 / 2 + 1 / 2 ^ 120) * ulp * m ≤ 3 * (ulp * m) := by rw [mul_assoc]; exact mul_le_mul_of_nonneg_right (by norm_num) um.le
    linarith

/-- apo: `p + q + 17` rounding units, however many bars have been read. -/
theorem apo_accurate (o : Nat → F64) (p q : Nat) (hc : toInt (o 0) = .ok (p : Int)) (hc1 : toInt (o 1) = .ok (q : Int))
    (hp : 1 ≤ p) (hq : 2 ≤ q) (hpq : p ≤ q) :
    Accurate apoBatch o 1 (fun X j => Spec.ema (emaCoef p) X (j + 1) - Spec.ema (emaCoef q) X (j + 1)) (fun _ => p + q + 17) :=
  accurate_of (apo_run o p q hc hc1 hp hq hpq) fun m hm x hx j _ => by
    have hb := toInt_range hc
    have hb1 := toInt_range hc1
    have z : ∀ i, Near (0 * m) (x i) (val (x i)) := fun i => by rw [zero_mul]; exact (hx i).near
    have a := (emaRec_near hp (by omega) hm.mid (le_refl 0) (by norm_num) z (fun i => (hx i).2) (j + 1)).mono (e' := ((p : ℚ) + 7) * ulp * m) (le_of_eq (by ring))
    have b := (emaRec_near (p := q) (by omega) (by omega) hm.mid (le_refl 0) (by norm_num) z (fun i => (hx i).2) (j + 1)).mono (e' := ((q : ℚ) + 7) * ulp * m) (le_of_eq (by ring))
    obtain ⟨p0, p1, -⟩ := emaPer_cond hp (by omega)
    obtain ⟨q0, q1, -⟩ := emaPer_cond (p := q) (by omega) (by omega)
    have pb : (p : ℚ) ≤ 2 ^ 31 := by exact_mod_cast (by omega : p ≤ 2 ^ 31)
    have qb : (q : ℚ) ≤ 2 ^ 31 := by exact_mod_cast (by omega : q ≤ 2 ^ 31)
    have lb : (2 : ℚ) ^ 31 + 7 ≤ 2 ^ 33 := by norm_num
    refine (line_near hm.mid (by linarith) (by linarith) a b (ema_abs (by positivity) p1 (fun i => (hx i).2) _)
      (ema_abs (by positivity) q1 (fun i => (hx i).2) _)).mono (le_of_eq (by ring))

/-! ### macd -/

theorem macdPerS_near {p q : Nat} (hp : 1 ≤ p) (hb : p < 2 ^ 31) : ∃ k, (macdCoef p q : ℚ × ℚ).1 = k ∧ Near (1001 / 1000 * k * ulp) (macdPerS p q : F64) k ∧
    1 / 2 ^ 31 ≤ k ∧ k ≤ 1 ∧ (101 / 100 + 61 / 10 * k) * ulp ≤ k * (((p : ℚ) + 7) * ulp) := by
  refine ⟨_, rfl, ?_⟩
  have hcond : ((p : Int) = 12 ∧ (q : Int) = 26) ↔ (p = 12 ∧ q = 26) := by omega
  unfold macdPerS macdCoef
  by_cases h : p = 12 ∧ q = 26
  · rw [if_pos (hcond.2 h), if_pos h]
    have f : IsFin (c! 15 : F64) := int_fin 15 (by norm_num)
    have v : val (c! 15 : F64) = 15 := by rw [int_val 15 (by norm_num)]; norm_num
    have g : IsFin (c! 100 : F64) := int_fin 100 (by norm_num)
    have w : val (c! 100 : F64) = 100 := by rw [int_val 100 (by norm_num)]; norm_num
    have r := F64.div_rounds f g (by rw [w]; norm_num)
    rw [v, w, show (15 : ℚ) / 100 = 3 / 20 by norm_num] at r
    refine ⟨weight_near r (by norm_num) (by norm_num), by norm_num, by norm_num, ?_⟩
    rw [h.1]
    have := ulp_pos
    push_cast
    linarith
  · rw [if_neg (fun h' => h (hcond.1 h')), if_neg h]
    obtain ⟨h1, h2, h3, h4, h5⟩ := emaPer_cond hp hb
    exact ⟨emaPer_near hp hb, h1, h2, h5⟩
theorem macdPerL_near {p q : Nat} (hp : 1 ≤ q) (hb : q < 2 ^ 31) : ∃ k, (macdCoef p q : ℚ × ℚ).2 = k ∧ Near (1001 / 1000 * k * ulp) (macdPerL p q : F64) k ∧
    1 / 2 ^ 31 ≤ k ∧ k ≤ 1 ∧ (101 / 100 + 61 / 10 * k) * ulp ≤ k * (((q : ℚ) + 7) * ulp) := by
  refine ⟨_, rfl, ?_⟩
  have hcond : ((p : Int) = 12 ∧ (q : Int) = 26) ↔ (p = 12 ∧ q = 26) := by omega
  unfold macdPerL macdCoef
  by_cases h : p = 12 ∧ q = 26
  · rw [if_pos (hcond.2 h), if_pos h]
    have f : IsFin (c! 75 : F64) := int_fin 75 (by norm_num)
    have v : val (c! 75 : F64) = 75 := by rw [int_val 75 (by norm_num)]; norm_num
    have g : IsFin (c! 1000 : F64) := int_fin 1000 (by norm_num)
    have w : val (c! 1000 : F64) = 1000 := by rw [int_val 1000 (by norm_num)]; norm_num
    have r := F64.div_rounds f g (by rw [w]; norm_num)
    rw [v, w, show (75 : ℚ) / 1000 = 3 / 40 by norm_num] at r
    refine ⟨weight_near r (by norm_num) (by norm_num), by norm_num, by norm_num, ?_⟩
    rw [h.2]
    have := ulp_pos
    push_cast
    linarith
  · rw [if_neg (fun h' => h (hcond.1 h')), if_neg h]
    obtain ⟨h1, h2, h3, h4, h5⟩ := emaPer_cond hp hb
    exact ⟨emaPer_near hp hb, h1, h2, h5⟩

theorem macdLine_near {m : ℚ} {p q : Nat} (hp : 1 ≤ p) (hq : 1 ≤ q) (hb : p < 2 ^ 31) (hb1 : q < 2 ^ 31) (hm : Mid m) {x : Nat → F64} (hx : ∀ i, UpTo m (x i)) (i : Nat) :
    Near ((p + q + 17) * ulp * m) (macdLine p q x i) (Spec.ema (macdCoef p q).1 (fun i => val (x i)) i - Spec.ema (macdCoef p q).2 (fun i => val (x i)) i) ∧
    |Spec.ema (macdCoef p q).1 (fun i => val (x i)) i - Spec.ema (macdCoef p q).2 (fun i => val (x i)) i| ≤ 2 * m := by
  obtain ⟨k, ek, nk, k0, k1, kc⟩ := macdPerS_near (q := q) hp hb
  obtain ⟨l, el, nl, l0, l1, lc⟩ := macdPerL_near (p := p) hq hb1
  obtain ⟨-, -, p3, p4, -⟩ := emaPer_cond hp hb
  obtain ⟨-, -, q3, q4, -⟩ := emaPer_cond hq hb1
  rw [ek, el]
  have z : ∀ i, Near (0 * m) (x i) (val (x i)) := fun i => by rw [zero_mul]; exact (hx i).near
  have a := (rec_near k0 k1 nk p3 p4 kc hm (le_refl 0) (by norm_num) z (fun i => (hx i).2) i).mono (e' := ((p : ℚ) + 7) * ulp * m) (le_of_eq (by ring))
  have b := (rec_near l0 l1 nl q3 q4 lc hm (le_refl 0) (by norm_num) z (fun i => (hx i).2) i).mono (e' := ((q : ℚ) + 7) * ulp * m) (le_of_eq (by ring))
  have pb : (p : ℚ) ≤ 2 ^ 31 := by exact_mod_cast hb.le
  have qb : (q : ℚ) ≤ 2 ^ 31 := by exact_mod_cast hb1.le
  have lb : (2 : ℚ) ^ 31 + 7 ≤ 2 ^ 33 := by norm_num
  have ka := ema_abs (le_trans (by positivity) k0) k1 (fun i => (hx i).2) i
  have la := ema_abs (le_trans (by positivity) l0) l1 (fun i => (hx i).2) i
  refine ⟨(line_near hm (by linarith) (by linarith) a b ka la).mono (le_of_eq (by ring)), ?_⟩
  have := abs_sub (Spec.ema k (fun i => val (x i)) i) (Spec.ema l (fun i => val (x i)) i)
  linarith

theorem macdSig_near {m : ℚ} {p q r : Nat} (hp : 1 ≤ p) (hq : 1 ≤ q) (hr : 1 ≤ r) (hb : p < 2 ^ 31) (hb1 : q < 2 ^ 31) (hb2 : r < 2 ^ 31) (hm : Ordinary m)
    {x : Nat → F64} (hx : ∀ i, UpTo m (x i)) (j : Nat) :
    Near ((p + q + 2 * r + 31) * ulp * m) (macdSig p q r x j)
      (Spec.ema (emaCoef r) (shift (q - 1) fun i => Spec.ema (macdCoef p q).1 (fun i => val (x i)) i - Spec.ema (macdCoef p q).2 (fun i => val (x i)) i) j) ∧
    |Spec.ema (emaCoef r) (shift (q - 1) fun i => Spec.ema (macdCoef p q).1 (fun i => val (x i)) i - Spec.ema (macdCoef p q).2 (fun i => val (x i)) i) j| ≤ 2 * m := by
  have pb : (p : ℚ) ≤ 2 ^ 31 := by exact_mod_cast hb.le
  have qb : (q : ℚ) ≤ 2 ^ 31 := by exact_mod_cast hb1.le
  have L := macdLine_near hp hq hb hb1 hm.mid hx
  generalize hl : (fun i => Spec.ema (macdCoef p q : ℚ × ℚ).1 (fun i => val (x i)) i - Spec.ema (macdCoef p q : ℚ × ℚ).2 (fun i => val (x i)) i) = line
  have L1 : ∀ i, Near ((p + q + 17) / 2 * ulp * (2 * m)) (macdLine p q x i) (line i) := fun i => by
    rw [← hl]; exact (L i).1.mono (le_of_eq (by ring))
  have L2 : ∀ i, |line i| ≤ 2 * m := fun i => by rw [← hl]; exact (L i).2
  obtain ⟨h1, h2, h3, h4, h5⟩ := emaPer_cond hr hb2
  have u0 := ulp_pos
  have e0 : 0 ≤ ((p : ℚ) + q + 17) / 2 * ulp := by positivity
  have e1 : ((p : ℚ) + q + 17) / 2 * ulp ≤ 1 / 2 ^ 20 := by
    calc ((p : ℚ) + q + 17) / 2 * ulp ≤ (2 ^ 31 + 9) * ulp := mul_le_mul_of_nonneg_right (by linarith) u0.le
      _ ≤ _ := by unfold ulp; norm_num
  have S : ∀ j, |Spec.ema (emaCoef r) (shift (q - 1) line) j| ≤ 2 * m := fun j => ema_abs (le_trans (by positivity) h1) h2 (fun i => L2 _) j
  refine ⟨?_, S j⟩
  suffices Near (((r + 7) * ulp + (p + q + 17) / 2 * ulp) * (2 * m)) (macdSig p q r x j) (Spec.ema (emaCoef r) (shift (q - 1) line) j) from
    this.mono (le_of_eq (by ring))
  induction j with
  | zero =>
    have e : Spec.ema (emaCoef r) (shift (q - 1) line) 0 = line (q - 1) + 2 / ((r : ℚ) + 1) * (line (q - 1) - line (q - 1)) := by
      rw [sub_self, mul_zero, add_zero, Spec.ema, shift, Nat.zero_add]
    have e' : (macdSig p q r x 0 : F64) = (macdLine p q x (q - 1) - macdLine p q x (q - 1)) * emaPer r + macdLine p q x (q - 1) := rfl
    rw [e, e']
    refine blend_near hm.mid2 h1 h2 (emaPer_near hr hb2) h3 h4 h5 e0 e1 (L1 _) (L2 _) ((L1 _).mono ?_) (L2 _)
    exact mul_le_mul_of_nonneg_right (by linarith) hm.mid2.pos.le
  | succ j ih =>
    have e' : (macdSig p q r x (j + 1) : F64) = (macdLine p q x (j + 1 + (q - 1)) - macdSig p q r x j) * emaPer r + macdSig p q r x j := rfl
    rw [e', Spec.ema]
    exact blend_near hm.mid2 h1 h2 (emaPer_near hr hb2) h3 h4 h5 e0 e1 (L1 _) (L2 _) ih (S j)

/-- macd, line, signal and histogram: `p + q + 17`, `p + q + 2 r + 31` and `2 p + 2 q + 2 r + 54` rounding units, however many bars
have been read. -/
theorem macd_accurate (o : Nat → F64) (p q r : Nat) (hc : toInt (o 0) = .ok (p : Int)) (hc1 : toInt (o 1) = .ok (q : Int)) (hc2 : toInt (o 2) = .ok (r : Int))
    (hp : 1 ≤ p) (hq : 2 ≤ q) (hpq : p ≤ q) (hr : 1 ≤ r) :
    AccurateAt (·.macd) macdBatch o (q - 1) (fun X j => Spec.ema (macdCoef p q).1 X (j + (q - 1)) - Spec.ema (macdCoef p q).2 X (j + (q - 1)))
      (fun _ => p + q + 17) ∧
    AccurateAt (·.signal) macdBatch o (q - 1) (fun X => Spec.ema (emaCoef r) (shift (q - 1) fun i => Spec.ema (macdCoef p q).1 X i - Spec.ema (macdCoef p q).2 X i))
      (fun _ => p + q + 2 * r + 31) ∧
    AccurateAt (·.hist) macdBatch o (q - 1) (fun X j => Spec.ema (macdCoef p q).1 X (j + (q - 1)) - Spec.ema (macdCoef p q).2 X (j + (q - 1)) -
        Spec.ema (emaCoef r) (shift (q - 1) fun i => Spec.ema (macdCoef p q).1 X i - Spec.ema (macdCoef p q).2 X i) j)
      (fun _ => 2 * p + 2 * q + 2 * r + 54) := by
  have hb := toInt_range hc
  have hb1 := toInt_range hc1
  have hb2 := toInt_range hc2
  have run := macd_run o p q r hc hc1 hc2 hp hq hpq hr
  refine ⟨accurate_of run fun m hm x hx j _ => (macdLine_near hp (by omega) (by omega) (by omega) hm.mid hx _).1,
    accurate_of run fun m hm x hx j _ => (macdSig_near hp (by omega) hr (by omega) (by omega) (by omega) hm hx j).1,
    accurate_of run fun m hm x hx j _ => ?_⟩
  obtain ⟨l1, l2⟩ := macdLine_near hp (by omega : 1 ≤ q) (by omega) (by omega) hm.mid hx (j + (q - 1))
  obtain ⟨s1, s2⟩ := macdSig_near hp (by omega : 1 ≤ q) hr (by omega) (by omega) (by omega) hm hx j
  have pb : (p : ℚ) ≤ 2 ^ 31 := by exact_mod_cast (by omega : p ≤ 2 ^ 31)
  have qb : (q : ℚ) ≤ 2 ^ 31 := by exact_mod_cast (by omega : q ≤ 2 ^ 31)
  have rb : (r : ℚ) ≤ 2 ^ 31 := by exact_mod_cast (by omega : r ≤ 2 ^ 31)
  have um : 0 < ulp * (2 * m) := mul_pos ulp_pos hm.mid2.pos
  refine (line_near (c := (p + q + 17) / 2) (d := (p + q + 2 * r + 31) / 2) hm.mid2 ?_ ?_ (l1.mono (le_of_eq (by ring))) (s1.mono (le_of_eq (by ring))) l2 s2).mono ?_
  · linarith [show (2 : ℚ) ^ 31 + 9 ≤ 2 ^ 33 by norm_num]
  · linarith [show (2 : ℚ) ^ 31 + 2 ^ 31 + 16 ≤ 2 ^ 33 by norm_num]
  · linarith

/-! ### Running sums: every bar adds at most a fixed error -/

/-- sum: at most `2 p + 2` rounding units per bar read. -/
theorem sum_accurate (o : Nat → F64) (p : Nat) (hc : toInt (o 0) = .ok (p : Int)) (hp : 1 ≤ p) :
    Accurate sumBatch o (p - 1) (winSum p) (fun j => (j + p) * (2 * p + 2)) (fun j => (j + p) * (2 * p + 2) ≤ 2 ^ 50) :=
  accurate_of (sumBatch_run o p hc hp) fun m hm x hx j hj => by
    have hb := toInt_range hc
    have := slide_near (p := p) hm.mid hx (j + p) (by exact_mod_cast hj) (by omega)
    rw [winSum_ico] at this
    push_cast at this
    exact this
/-- sma: at most `2 + 2 / p` rounding units per bar read, and three more. -/
theorem sma_accurate (o : Nat → F64) (p : Nat) (hc : toInt (o 0) = .ok (p : Int)) (hp : 1 ≤ p) :
    Accurate smaBatch o (p - 1) (winMean p) (fun j => (j + p) * (2 * p + 2) / p + 3) (fun j => (j + p) * (2 * p + 2) ≤ 2 ^ 50) :=
  accurate_of (smaBatch_run o p hc hp) fun m hm x hx j hj => by
    have hb := toInt_range hc
    have hj' : ((j + p : Nat) : ℚ) * (2 * p + 2) ≤ 2 ^ 50 := by exact_mod_cast hj
    have s := slide_near (p := p) hm.mid hx (j + p) hj' (by omega)
    rw [winSum_ico] at s
    have n := mean_near hp (by omega) hm.mid hj' s (winSum_abs p (fun i => (hx i).2) j)
    push_cast at n
    exact n

/-! ### Variance: accurate in terms of the squared prices -/

theorem winVar_eq (p : Nat) (hp : 1 ≤ p) (X : Nat → ℚ) (j : Nat) : winVar p X j = winSum p (fun i => X i * X i) j / p - winMean p X j * winMean p X j := by
  have p0 : (p : ℚ) ≠ 0 := by positivity
  have e : ∑ k ∈ Finset.range p, (X (j + k) - winMean p X j) ^ 2 = winSum p (fun i => X i * X i) j - 2 * winMean p X j * winSum p X j + p * (winMean p X j) ^ 2 := by
    simp only [winSum]
    rw [Finset.mul_sum, ← Finset.sum_sub_distrib, ← nsmul_eq_mul, ← Finset.card_range p, ← Finset.sum_const, Finset.card_range, ← Finset.sum_add_distrib]
    exact Finset.sum_congr rfl fun k _ => by ring
  rw [winVar, e, winMean]
  field_simp
  ring

/-- var: the error is measured in rounding units of the squared prices, at most `8 + 8 / p` per bar read, and fifteen more. -/
theorem var_accurate (o : Nat → F64) (p : Nat) (hc : toInt (o 0) = .ok (p : Int)) (hp : 1 ≤ p) :
    ∀ m, 0 < m → Ordinary m → Ordinary (m * m) → ∀ x : Nat → F64, (∀ i, UpTo m (x i)) → ∀ N, ∃ y, varBatch o (pre x N) = .ok (.okay, pre y (N - (p - 1))) ∧
      ∀ j : Nat, (j + p) * (2 * p + 2) ≤ 2 ^ 48 → Near ((4 * ((j + p) * (2 * p + 2) / p) + 15) * ulp * (m * m)) (y j) (winVar p (fun i => val (x i)) j) := by
  intro m m0 hm hM x hx N
  have hb := toInt_range hc
  refine ⟨_, var_run o p hc hp x N, fun j hj => ?_⟩
  have hj' : ((j + p : Nat) : ℚ) * (2 * p + 2) ≤ 2 ^ 48 := by exact_mod_cast hj
  have j50 : ((j + p : Nat) : ℚ) * (2 * p + 2) ≤ 2 ^ 50 := hj'.trans (by norm_num)
  have M0 : 0 < m * m := mul_pos m0 m0
  have uM : 0 < ulp * (m * m) := mul_pos ulp_pos M0
  have p1 : (1 : ℚ) ≤ p := by exact_mod_cast hp
  have pb : (p : ℚ) ≤ 2 ^ 31 := by exact_mod_cast (by omega : p ≤ 2 ^ 31)
  have pp : (0 : ℚ) < p := by linarith
  show Near _ (slide (fun i => x i * x i) p (j + p) * (c! 1 / ((p : Int) : F64)) -
    slide x p (j + p) * (c! 1 / ((p : Int) : F64)) * (slide x p (j + p) * (c! 1 / ((p : Int) : F64)))) _
  -- the mean
  have s1 := slide_near (p := p) hm.mid hx (j + p) j50 (by omega)
  rw [winSum_ico] at s1
  have n1 := mean_near hp (by omega) hm.mid j50 s1 (winSum_abs p (fun i => (hx i).2) j)
  -- the mean of the squares
  have sq : ∀ i, |val (x i) * val (x i)| ≤ m * m := fun i => by
    rw [abs_mul]; exact mul_le_mul (hx i).2 (hx i).2 (abs_nonneg _) m0.le
  have r : ∀ i, Near ((1 + 1 / 2 ^ 120) * ulp * (m * m)) (x i * x i) (val (x i) * val (x i)) := fun i =>
    Rounds.ordinary (mul_rounds (hx i).1 (hx i).1) hM.mid (by rw [one_mul]; exact sq i) (by norm_num)
  have r' : ∀ i, |val (x i * x i) - val (x i) * val (x i)| ≤ 11 / 10 * (ulp * (m * m)) := fun i => by
    refine (r i).2.trans ?_
    rw [mul_assoc]; exact mul_le_mul_of_nonneg_right (by norm_num) uM.le
  have u8 : ulp * (m * m) ≤ 1 / 80 * (m * m) := mul_le_mul_of_nonneg_right (by unfold ulp; norm_num) M0.le
  have hM9 : Mid (9 / 8 * (m * m)) := by
    have h2 := hM.mid2
    refine ⟨hM.1.trans (by linarith), le_trans ?_ h2.2⟩
    linarith
  have up : ∀ i, UpTo (9 / 8 * (m * m)) (x i * x i) := fun i => ⟨(r i).1, by
    have := abs_add_le (val (x i * x i) - val (x i) * val (x i)) (val (x i) * val (x i))
    rw [sub_add_cancel] at this
    have := r' i
    have := sq i
    linarith⟩
  have s2 := slide_near (p := p) (x := fun i => x i * x i) hM9 up (j + p) j50 (by omega)
  rw [winSum_ico] at s2
  have s3 : Near ((9 / 8 * (((j + p : Nat) : ℚ) * (2 * p + 2)) + 11 / 10 * p) * ulp * (m * m)) (slide (fun i => x i * x i) p (j + p)) (winSum p (fun i => val (x i) * val (x i)) j) := by
    refine (s2.of (e2 := 11 / 10 * p * (ulp * (m * m))) ?_).mono (le_of_eq (by ring))
    simp only [winSum]
    rw [← Finset.sum_sub_distrib]
    refine (sum_abs (X := fun k => val (x (j + k) * x (j + k)) - val (x (j + k)) * val (x (j + k))) (fun k => r' _) _).trans (le_of_eq ?_)
    rw [Finset.card_range]; ring
  have n2 := mean_near hp (by omega) hM.mid (by linarith [show 9 / 8 * (2 : ℚ) ^ 48 + 11 / 10 * 2 ^ 31 ≤ 2 ^ 50 by norm_num]) s3 (winSum_abs p (X := fun i => val (x i) * val (x i)) sq j)
  have ediv : (9 / 8 * (((j + p : Nat) : ℚ) * (2 * p + 2)) + 11 / 10 * p) / p = 9 / 8 * (((j + p : Nat) : ℚ) * (2 * p + 2) / p) + 11 / 10 := by field_simp
  rw [ediv] at n2
  have E0 : 0 ≤ ((j + p : Nat) : ℚ) * (2 * p + 2) / p := by positivity
  have E1 : ((j + p : Nat) : ℚ) * (2 * p + 2) / p ≤ 2 ^ 48 := (div_le_self (by positivity) p1).trans hj'
  have ecast : ((j + p : Nat) : ℚ) = j + p := by push_cast; rfl
  have emean : winSum p (fun k => val (x k)) j / p = winMean p (fun i => val (x i)) j := rfl
  rw [emean] at n1
  generalize hE : ((j + p : Nat) : ℚ) * (2 * p + 2) / p = E at *
  -- the square of the mean
  have hμ : |winMean p (fun i => val (x i)) j| ≤ m := by
    rw [winMean, abs_div, abs_of_pos pp, div_le_iff₀ pp, mul_comm m]; exact winSum_abs p (fun i => (hx i).2) j
  have um : 0 < ulp * m := mul_pos ulp_pos m0
  have e8 : (E + 3) * ulp * m ≤ 1 / 16 * m := by
    refine mul_le_mul_of_nonneg_right ?_ m0.le
    calc (E + 3) * ulp ≤ (2 ^ 48 + 3) * ulp := mul_le_mul_of_nonneg_right (by linarith) ulp_pos.le
      _ ≤ 1 / 16 := by unfold ulp; norm_num
  have a1 := n1.abs_le hμ
  generalize slide x p (j + p) * (c! 1 / ((p : Int) : F64)) = A at *
  have hA : |val A| ≤ 17 / 16 * m := by linarith
  have hAA : |val A * val A| ≤ 5 / 4 * (m * m) := by
    rw [abs_mul]
    calc |val A| * |val A| ≤ 17 / 16 * m * (17 / 16 * m) := mul_le_mul hA hA (abs_nonneg _) (by positivity)
      _ = 289 / 256 * (m * m) := by ring
      _ ≤ _ := mul_le_mul_of_nonneg_right (by norm_num) M0.le
  have n3 := near_mul hM.mid n1 n1 hAA (by norm_num)
  have c1 : |val A| * ((E + 3) * ulp * m) ≤ 17 / 16 * ((E + 3) * (ulp * (m * m))) := by
    calc |val A| * ((E + 3) * ulp * m) ≤ 17 / 16 * m * ((E + 3) * ulp * m) := mul_le_mul_of_nonneg_right hA (by have := ulp_pos; positivity)
      _ = _ := by ring
  have c2 : |winMean p (fun i => val (x i)) j| * ((E + 3) * ulp * m) ≤ (E + 3) * (ulp * (m * m)) := by
    calc _ ≤ m * ((E + 3) * ulp * m) := mul_le_mul_of_nonneg_right hμ (by have := ulp_pos; positivity)
      _ = _ := by ring
  have c3 : (5 / 4 + 1 / 2 ^ 120) * ulp * (m * m) ≤ 13 / 10 * (ulp * (m * m)) := by
    rw [mul_assoc]; exact mul_le_mul_of_nonneg_right (by norm_num) uM.le
  have n3' : Near ((33 / 16 * (E + 3) + 13 / 10) * (ulp * (m * m))) (A * A) (winMean p (fun i => val (x i)) j * winMean p (fun i => val (x i)) j) :=
    n3.mono (by linarith)
  -- the difference
  have g1 : (9 / 8 * E + 11 / 10 + 3) * ulp * (m * m) ≤ 1 / 4 * (m * m) := by
    refine mul_le_mul_of_nonneg_right ?_ M0.le
    calc (9 / 8 * E + 11 / 10 + 3) * ulp ≤ (9 / 8 * 2 ^ 48 + 5) * ulp := mul_le_mul_of_nonneg_right (by linarith) ulp_pos.le
      _ ≤ 1 / 4 := by unfold ulp; norm_num
  have g2 : (33 / 16 * (E + 3) + 13 / 10) * (ulp * (m * m)) ≤ 1 / 4 * (m * m) := by
    rw [← mul_assoc]
    refine mul_le_mul_of_nonneg_right ?_ M0.le
    calc (33 / 16 * (E + 3) + 13 / 10) * ulp ≤ (33 / 16 * (2 ^ 48 + 3) + 2) * ulp := mul_le_mul_of_nonneg_right (by linarith) ulp_pos.le
      _ ≤ 1 / 4 := by unfold ulp; norm_num
  have h2 : |winSum p (fun i => val (x i) * val (x i)) j / p| ≤ m * m := by
    rw [abs_div, abs_of_pos pp, div_le_iff₀ pp, mul_comm (m * m)]; exact winSum_abs p (X := fun i => val (x i) * val (x i)) sq j
  have h3 : |winMean p (fun i => val (x i)) j * winMean p (fun i => val (x i)) j| ≤ m * m := by
    rw [abs_mul]; exact mul_le_mul hμ hμ (abs_nonneg _) m0.le
  have n4 := near_sub (B := 5 / 2) hM.mid n2 n3' (by
    have b2 := n2.abs_le h2
    have b3 := n3'.abs_le h3
    refine (abs_sub _ _).trans ?_
    linarith) (by norm_num)
  rw [← winVar_eq p hp] at n4
  refine n4.mono ?_
  have c4 : (5 / 2 + 1 / 2 ^ 120) * ulp * (m * m) ≤ 26 / 10 * (ulp * (m * m)) := by
    rw [mul_assoc]; exact mul_le_mul_of_nonneg_right (by norm_num) uM.le
  have c5 : 0 ≤ E * (ulp * (m * m)) := mul_nonneg E0 uM.le
  rw [← ecast, hE]
  linarith

/-! ### What is lost for good -/

/-- Two bars, then nothing but zeros. -/
def spike (i : Nat) : F64 := if i = 0 then ((2 ^ 54 : Int) : F64) else if i = 1 then c! 1 else c! 0

theorem spike_stuck (i : Nat) : slide spike 2 (i + 4) = -(c! 1) := by
  induction i with
  | zero => kernel_decide
  | succ i ih =>
    rw [slide_succ, if_neg (by omega), ih, spike, if_neg (by omega), if_neg (by omega), spike, if_neg (by omega), if_neg (by omega)]
    kernel_decide

/-- The sum of two prices and their average go wrong by a single large price and stay wrong: long after it has left the window, with
nothing but zeros in the input, every output is -1 and -1/2.  So the bound of `sma_accurate` has to refer to the largest price
since the first bar, not to those in the window. -/
theorem sma_accurate_window_violates : ∀ N, ∃ y z, sumBatch (opt1 2) (pre spike N) = .ok (.okay, pre y (N - 1)) ∧
    smaBatch (opt1 2) (pre spike N) = .ok (.okay, pre z (N - 1)) ∧
    ∀ j, 2 ≤ j → spike j = c! 0 ∧ spike (j + 1) = c! 0 ∧ y j = -(c! 1) ∧ z j = -(c! 1 / c! 2) := fun N => by
  have hc : toInt (opt1 2 0) = .ok ((2 : Nat) : Int) := by kernel_decide
  refine ⟨_, _, sumBatch_run (opt1 2) 2 hc (by norm_num) spike N, smaBatch_run (opt1 2) 2 hc (by norm_num) spike N, fun j hj => ?_⟩
  obtain ⟨k, rfl⟩ : ∃ k, j = k + 2 := ⟨j - 2, by omega⟩
  have e : slide spike 2 (k + 2 + 2) = -(c! 1) := spike_stuck k
  refine ⟨by rw [spike, if_neg (by omega), if_neg (by omega)], by rw [spike, if_neg (by omega), if_neg (by omega)], e, ?_⟩
  beta_reduce
  rw [e]
  kernel_decide

/-- Two prices that differ by 1 have the variance 1/4; `var` writes 0 for 94906267 and 94906266, because it subtracts two numbers of
which all digits agree.  So do the standard deviation and the band width made of it. -/
theorem var_accurate_violates : Outputs (varBatch (opt1 2) [c! 94906266, c! 94906267]) (fun y => y = c! 0) ∧
    Outputs (stddevBatch (opt1 2) [c! 94906266, c! 94906267]) (fun y => y = c! 0) ∧ winVar 2 (fun i => 94906266 + (i : ℚ)) 0 = 1 / 4 := by
  refine ⟨by kernel_decide, by kernel_decide, ?_⟩
  norm_num [winVar, winMean, winSum, Finset.sum_range_succ]

/-! ### Cases that meet the hypotheses -/

theorem ordinary_of (k : Nat) (h : 1 ≤ k) (h' : k ≤ 2 ^ 100) : Ordinary (k : ℚ) := by
  have h1 : (1 : ℚ) ≤ k := by exact_mod_cast h
  have h2 : (k : ℚ) ≤ 2 ^ 100 := by exact_mod_cast h'
  exact ⟨(div_le_one (by positivity) |>.2 (one_le_pow₀ (by norm_num))).trans h1, h2.trans (pow_le_pow_right₀ (by norm_num) (by norm_num))⟩
theorem int_upTo {n : Int} {k : Nat} (hk : k < 2 ^ 53) (h : n.natAbs ≤ k) : UpTo (k : ℚ) ((n : Int) : F64) := by
  refine ⟨int_fin n (by omega), ?_⟩
  rw [int_val n (by omega), ← Int.cast_abs, Int.abs_eq_natAbs]
  exact_mod_cast h
theorem waveD_upTo (i : Nat) : UpTo ((106 : Nat) : ℚ) (waveD i) := by
  have := wave_lo i; have := wave_hi i
  exact int_upTo (by norm_num) (by omega)
theorem waveHLC_upTo (i : Nat) : Prices.upTo ((109 : Nat) : ℚ) (waveHLC i) := by
  have := wave_lo i; have := wave_hi i
  exact ⟨int_upTo (by norm_num) (by omega), int_upTo (by norm_num) (by omega), int_upTo (by norm_num) (by omega)⟩

/-- After 500 bars around 100 the 14-period average of the doubles is within 10^-12 of the exact one. -/
example : ∃ y, emaBatch (opt1 14) (pre waveD 500) = .ok (.okay, pre y 500) ∧
    ∀ j, Near (1 / 10 ^ 12) (y j) (Spec.ema (emaCoef 14) (fun i => val (waveD i)) j) := by
  obtain ⟨y, h, hn⟩ := ema_accurate (opt1 14) 14 opt14 (by decide) _ (ordinary_of 106 (by norm_num) (by norm_num)) waveD waveD_upTo 500
  exact ⟨y, h, fun j => (hn j trivial).mono (by unfold ulp; norm_num)⟩
example := wilders_accurate (opt1 14) 14 opt14 (by decide) _ (ordinary_of 106 (by norm_num) (by norm_num)) waveD waveD_upTo 500
example := mom_accurate (opt1 14) 14 opt14 (by decide) _ (ordinary_of 106 (by norm_num) (by norm_num)) waveD waveD_upTo 500
example := tr_accurate (opt1 14) _ (ordinary_of 109 (by norm_num) (by norm_num)) waveHLC waveHLC_upTo 500
example := atr_accurate (opt1 14) 14 opt14 (by decide) _ (ordinary_of 109 (by norm_num) (by norm_num)) waveHLC waveHLC_upTo 500
example := typprice_accurate (opt1 14) _ (ordinary_of 109 (by norm_num) (by norm_num)) waveHLC waveHLC_upTo 500
example := apo_accurate (optsD [12, 26]) 12 26 (by kernel_decide) (by kernel_decide) (by decide) (by decide) (by decide) _
  (ordinary_of 106 (by norm_num) (by norm_num)) waveD waveD_upTo 500
example := (macd_accurate (optsD [12, 26, 9]) 12 26 9 (by kernel_decide) (by kernel_decide) (by kernel_decide) (by decide) (by decide) (by decide) (by decide)).2.2 _
  (ordinary_of 106 (by norm_num) (by norm_num)) waveD waveD_upTo 500
/-- After a million bars the 14-period running mean is still within 10^-7 of the exact one. -/
example : ∃ y, smaBatch (opt1 14) (pre waveD 1000000) = .ok (.okay, pre y (1000000 - 13)) ∧
    ∀ j < 999987, Near (1 / 10 ^ 7) (y j) (winMean 14 (fun i => val (waveD i)) j) := by
  obtain ⟨y, h, hn⟩ := sma_accurate (opt1 14) 14 opt14 (by decide) _ (ordinary_of 106 (by norm_num) (by norm_num)) waveD waveD_upTo 1000000
  refine ⟨y, h, fun j hj => (hn j (by omega)).mono ?_⟩
  have : (j : ℚ) ≤ 999987 := by exact_mod_cast hj.le
  unfold ulp
  push_cast
  linarith
example := var_accurate (opt1 14) 14 opt14 (by decide) _ (by norm_num) (ordinary_of 106 (by norm_num) (by norm_num))
  (by have := ordinary_of 11236 (by norm_num) (by norm_num); norm_num at this ⊢; exact this) waveD waveD_upTo 500
end
end Verif
