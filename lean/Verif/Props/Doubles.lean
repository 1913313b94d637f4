/-
What survives rounding.  The theorems of the other files hold in exact arithmetic or for any arithmetic; here the
numbers are IEEE doubles (`F64`), the numbers the library really computes with, and `Libm` (the functions IEEE 754
leaves open) is arbitrary.
-/
import Verif.Proof.Doubles
import Verif.Proof.Simple
import Verif.Proof.Extremum
import Verif.Core.Eval
import Verif.Spec.Witness
import Verif.Spec.DoubleData
import Verif.Model.Volume
import Verif.Model.Osc
import Verif.Model.Smooth
import Verif.Model.Weighted
import Verif.Model.Stats
import Verif.Model.Sum
import Verif.Model.Flow
import Verif.Model.Rank
import Verif.Model.Average
import Verif.Model.Range

namespace Verif
open F64 Spec
set_option linter.unusedSectionVars false
set_option linter.unusedSimpArgs false
set_option exponentiation.threshold 3000

section
variable [Libm]

attribute [local irreducible] F64.ofInt F64.round F64.one F64.limit

theorem period_lt {o : Nat → F64} {p : Nat} (hc : toInt (o 0) = .ok (p : Int)) : p < 2 ^ 31 := by
  have := toInt_range hc
  have h : (2 : Nat) ^ 31 = 2147483648 := by norm_num
  rw [h]; omega

/-! ### Extremes are exact -/

/-- max on finite doubles returns finite doubles whose values are exactly the window maxima. -/
theorem max_value_double (o : Nat → F64) (p : Nat) (hc : toInt (o 0) = .ok (p : Int)) (hp : 1 ≤ p) (x : Nat → F64)
    (hx : ∀ i, IsFin (x i)) (N : Nat) : ∃ y, maxBatch o (pre x N) = .ok (.okay, pre y (N - (p - 1))) ∧
      ∀ j, IsFin (y j) ∧ val (y j) = winMax p (fun i => val (x i)) j := by
  refine ⟨_, max_run o p hc hp x N, fun j => ?_⟩
  have := trk_max_val x hx p (p - 1) j hp (by omega)
  rwa [show p - 1 + j - (p - 1) = j by omega] at this

/-- … and min exactly the window minima. -/
theorem min_value_double (o : Nat → F64) (p : Nat) (hc : toInt (o 0) = .ok (p : Int)) (hp : 1 ≤ p) (x : Nat → F64)
    (hx : ∀ i, IsFin (x i)) (N : Nat) : ∃ y, minBatch o (pre x N) = .ok (.okay, pre y (N - (p - 1))) ∧
      ∀ j, IsFin (y j) ∧ val (y j) = winMin p (fun i => val (x i)) j := by
  refine ⟨_, min_run o p hc hp x N, fun j => ?_⟩
  have := trk_min_val x hx p (p - 1) j hp (by omega)
  rwa [show p - 1 + j - (p - 1) = j by omega] at this

/-! ### Ranges that survive -/

theorem willrOut_def {R : Type} [Num R] (a b c : R) :
    willrOut a b c = if (a - b) == c! 0 then c! 0 else -(c! 100) * ((a - c) / (a - b)) := rfl

/-- willr of consistent bars with prices of magnitude up to `2^1022` is a finite double in `[-100, 0]`. -/
theorem willr_range_double (o : Nat → F64) (p : Nat) (hc : toInt (o 0) = .ok (p : Int)) (hp : 1 ≤ p) (x : Nat → HLC F64)
    (hx : ∀ i, Price (x i).low ∧ Price (x i).close ∧ Price (x i).high ∧ (x i).low ≤ (x i).close ∧ (x i).close ≤ (x i).high)
    (N : Nat) : ∃ y, willrBatch o (pre x N) = .ok (.okay, pre y (N - (p - 1))) ∧
      ∀ j, IsFin (y j) ∧ -100 ≤ val (y j) ∧ val (y j) ≤ 0 := by
  refine ⟨_, willr_run o p hc hp x N, fun j => ?_⟩
  obtain ⟨fM, vM⟩ := trk_max_val (fun i => (x i).high) (fun i => (hx i).2.2.1.1) p (p - 1) j hp (by omega)
  obtain ⟨fm, vm⟩ := trk_min_val (fun i => (x i).low) (fun i => (hx i).1.1) p (p - 1) j hp (by omega)
  rw [show p - 1 + j - (p - 1) = j by omega] at vM vm
  have hi := j + (p - 1)
  have hk : j + (p - 1) < j + (p - 1 + 1) := by omega
  have fc := (hx (j + (p - 1))).2.1
  have c1 : val (x (j + (p - 1))).close ≤ winMax p (fun i => val (x i).high) j :=
    ((F64.le_iff fc.1 (hx _).2.2.1.1).1 (hx (j + (p - 1))).2.2.2.2).trans
      (Finset.le_sup' (fun k => val (x (j + k)).high) (by simp))
  have c2 : winMin p (fun i => val (x i).low) j ≤ val (x (j + (p - 1))).close :=
    (Finset.inf'_le (fun k => val (x (j + k)).low) (by simp : p - 1 ∈ Finset.range (p - 1 + 1))).trans
      ((F64.le_iff (hx _).1.1 fc.1).1 (hx (j + (p - 1))).2.2.2.1)
  have bM : winMax p (fun i => val (x i).high) j ≤ 2 ^ 1022 := Finset.sup'_le _ _ fun k _ => (hx _).2.2.1.2.2
  have bm : -(2 ^ 1022) ≤ winMin p (fun i => val (x i).low) j := Finset.le_inf' _ _ fun k _ => (hx _).1.2.1
  simp only
  generalize (trk repMax (fun i => (x i).high) (x 0).high (p - 1) (p - 1) (j + 1)).2 = a at *
  generalize (trk repMin (fun i => (x i).low) (x 0).low (p - 1) (p - 1) (j + 1)).2 = b at *
  generalize (x (j + (p - 1))).close = c at *
  rw [← vM] at c1 bM
  rw [← vm] at c2 bm
  rw [willrOut_def]
  have pa : Price a := ⟨fM, fc.2.1.trans c1, bM⟩
  have pb : Price b := ⟨fm, bm, c2.trans fc.2.2⟩
  obtain ⟨fd, d0⟩ := price_sub pa pb (c2.trans c1)
  obtain ⟨fe, e0⟩ := price_sub pa fc c1
  split
  · exact ⟨zero_fin, by rw [zero_val]; norm_num, by rw [zero_val]⟩
  · rename_i hz
    rw [beq_zero fd] at hz
    have mono : val (a - c) ≤ val (a - b) :=
      (F64.sub_rounds fM fc.1).mono_val (F64.sub_rounds fM fm) fe fd (by linarith)
    obtain ⟨fu, u0, u1⟩ := ratio01 fe fd e0 mono hz
    obtain ⟨fn, vn⟩ := F64.neg_fin hundred_fin
    rw [hundred_val] at vn
    have := (F64.mul_rounds fn fu).between fn zero_fin (by rw [vn]; linarith) (by rw [vn, zero_val]; linarith)
    rwa [vn, zero_val] at this

/-- bop of consistent bars with prices of magnitude up to `2^1022` is a finite double in `[-1, 1]`. -/
theorem bop_range_double (o : Nat → F64) (x : Nat → OHLC F64)
    (hx : ∀ i, Price (x i).low ∧ Price (x i).open ∧ Price (x i).close ∧ Price (x i).high ∧ (x i).low ≤ (x i).open ∧
      (x i).open ≤ (x i).high ∧ (x i).low ≤ (x i).close ∧ (x i).close ≤ (x i).high) (N : Nat) :
    ∃ y, bopBatch o (pre x N) = .ok (.okay, pre y N) ∧ ∀ j, IsFin (y j) ∧ -1 ≤ val (y j) ∧ val (y j) ≤ 1 := by
  refine ⟨_, bop_run o x N, fun j => ?_⟩
  obtain ⟨pl, po, pc, ph, h1, h2, h3, h4⟩ := hx j
  rw [F64.le_iff pl.1 po.1] at h1
  rw [F64.le_iff po.1 ph.1] at h2
  rw [F64.le_iff pl.1 pc.1] at h3
  rw [F64.le_iff pc.1 ph.1] at h4
  simp only
  obtain ⟨fd, d0⟩ := price_sub ph pl (h1.trans h2)
  split
  · exact ⟨zero_fin, by rw [zero_val]; norm_num, by rw [zero_val]; norm_num⟩
  · rename_i hz
    rw [F64.le_iff fd zero_fin, zero_val, not_le] at hz
    obtain ⟨fn, vn⟩ := F64.neg_fin fd
    have rd := F64.sub_rounds ph.1 pl.1
    have hb : F64.Rounds (-(val (x j).high - val (x j).low)) (-((x j).high - (x j).low)) := rd.neg
    have rn := F64.sub_rounds pc.1 po.1
    have a1 := hb.mono rn (by linarith)
    have a2 := rn.mono rd (by linarith)
    have fe := F64.fin_of_between fn fd a1 a2
    have e1 := (F64.le_iff fn fe).1 a1
    have e2 := (F64.le_iff fe fd).1 a2
    rw [vn] at e1
    obtain ⟨f1, v1⟩ := F64.neg_fin one_fin
    rw [one_val] at v1
    have := (F64.div_rounds fe fd hz.ne').between f1 one_fin
      (by rw [v1, le_div_iff₀ hz]; linarith) (by rw [one_val, div_le_iff₀ hz]; linarith)
    rwa [v1, one_val] at this

/-- rsi of finite doubles is never outside `[0, 100]`. -/
theorem rsi_range_double (o : Nat → F64) (p : Nat) (hc : toInt (o 0) = .ok (p : Int)) (hp : 1 ≤ p) (x : Nat → F64)
    (hx : ∀ i, IsFin (x i)) (N : Nat) : ∃ y, rsiBatch o (pre x N) = .ok (.okay, pre y (N - p)) ∧
      ∀ j, Within (c! 0) (c! 100) (y j) :=
  ⟨_, rsi_run o p hc hp x N, fun j => rsiOut_within (wildersRec_nn p hp (period_lt hc) _ (upSig_nn x hx) j)
    (wildersRec_nn p hp (period_lt hc) _ (downSig_nn x hx) j)⟩

/-- dx of finite doubles is never outside `[0, 100]`. -/
theorem dx_range_double (o : Nat → F64) (p : Nat) (hc : toInt (o 0) = .ok (p : Int)) (hp : 1 ≤ p) (x : Nat → HL F64)
    (hx : ∀ i, IsFin (x i).high ∧ IsFin (x i).low) (N : Nat) :
    ∃ y, dxBatch o (pre x N) = .ok (.okay, pre y (N - (p - 1))) ∧ ∀ j, Within (c! 0) (c! 100) (y j) :=
  ⟨_, dx_run o p hc hp x N, fun j => dxOut_within (wSum_nn p hp (period_lt hc) _ (fun k => (dirSig_nn x hx k).1) j)
    (wSum_nn p hp (period_lt hc) _ (fun k => (dirSig_nn x hx k).2) j)⟩

/-- dm of finite doubles is never negative. -/
theorem dm_nonneg_double (o : Nat → F64) (p : Nat) (hc : toInt (o 0) = .ok (p : Int)) (hp : 1 ≤ p) (x : Nat → HL F64)
    (hx : ∀ i, IsFin (x i).high ∧ IsFin (x i).low) (N : Nat) :
    ∃ y, dmBatch o (pre x N) = .ok (.okay, pre y (N - (p - 1))) ∧ ∀ j, ¬ (y j).plus < c! 0 ∧ ¬ (y j).minus < c! 0 :=
  ⟨_, dm_run o p hc hp x N, fun j => ⟨not_lt_zero (wSum_nn p hp (period_lt hc) _ (fun k => (dirSig_nn x hx k).1) j),
    not_lt_zero (wSum_nn p hp (period_lt hc) _ (fun k => (dirSig_nn x hx k).2) j)⟩⟩

/-- tr of finite bars is never negative. -/
theorem tr_nonneg_double (o : Nat → F64) (x : Nat → HLC F64)
    (hx : ∀ i, IsFin (x i).high ∧ IsFin (x i).low ∧ IsFin (x i).close ∧ (x i).low ≤ (x i).high) (N : Nat) :
    ∃ y, trBatch o (pre x N) = .ok (.okay, pre y N) ∧ ∀ j, ¬ y j < c! 0 :=
  ⟨_, tr_run o x N, fun j => not_lt_zero (trSig_nn x hx j)⟩

/-- atr of finite bars is never negative. -/
theorem atr_nonneg_double (o : Nat → F64) (p : Nat) (hc : toInt (o 0) = .ok (p : Int)) (hp : 1 ≤ p) (x : Nat → HLC F64)
    (hx : ∀ i, IsFin (x i).high ∧ IsFin (x i).low ∧ IsFin (x i).close ∧ (x i).low ≤ (x i).high) (N : Nat) :
    ∃ y, atrBatch o (pre x N) = .ok (.okay, pre y (N - (p - 1))) ∧ ∀ j, ¬ y j < c! 0 :=
  ⟨_, atr_run o p hc hp x N, fun j => not_lt_zero (wildersRec_nn p hp (period_lt hc) _ (trSig_nn x hx) j)⟩

/-- ema with a period of at least 2: each output is a finite double between any two doubles (of magnitude up to
`2^1022`) that enclose the inputs so far.  Rounding cannot push it out. -/
theorem ema_bounds_double (o : Nat → F64) (p : Nat) (hc : toInt (o 0) = .ok (p : Int)) (hp : 2 ≤ p) (x : Nat → F64)
    (N : Nat) : ∃ y, emaBatch o (pre x N) = .ok (.okay, pre y N) ∧
      ∀ j, ∀ lo hi, Price lo → Price hi → (∀ k, k ≤ j → IsFin (x k) ∧ val lo ≤ val (x k) ∧ val (x k) ≤ val hi) →
        IsFin (y j) ∧ val lo ≤ val (y j) ∧ val (y j) ≤ val hi := by
  obtain ⟨f, a0, a1⟩ := emaPer_fin hp (period_lt hc)
  exact ⟨_, ema_run o p hc (by omega) x N, fun j lo hi pl ph h => emaRec_between f a0 a1 pl ph x j h⟩

/-- In particular a constant series is reproduced exactly. -/
theorem ema_const_double (o : Nat → F64) (p : Nat) (hc : toInt (o 0) = .ok (p : Int)) (hp : 2 ≤ p) (c : F64) (pc : Price c)
    (N : Nat) : ∃ y, emaBatch o (pre (fun _ => c) N) = .ok (.okay, pre y N) ∧ ∀ j, IsFin (y j) ∧ val (y j) = val c := by
  obtain ⟨y, h1, h2⟩ := ema_bounds_double o p hc hp (fun _ => c) N
  refine ⟨y, h1, fun j => ?_⟩
  obtain ⟨f, a, b⟩ := h2 j c c pc pc fun k _ => ⟨pc.1, le_refl _, le_refl _⟩
  exact ⟨f, le_antisymm b a⟩

theorem natrOut_def {R : Type} [Num R] (v c : R) : natrOut v c = if v == c! 0 then c! 0 else c! 100 * v / c := rfl

/-- natr of finite bars with positive closes is never negative. -/
theorem natr_nonneg_double (o : Nat → F64) (p : Nat) (hc : toInt (o 0) = .ok (p : Int)) (hp : 1 ≤ p) (x : Nat → HLC F64)
    (hx : ∀ i, IsFin (x i).high ∧ IsFin (x i).low ∧ IsFin (x i).close ∧ (x i).low ≤ (x i).high)
    (h0 : ∀ i, c! 0 < (x i).close) (N : Nat) :
    ∃ y, natrBatch o (pre x N) = .ok (.okay, pre y (N - (p - 1))) ∧ ∀ j, ¬ y j < c! 0 := by
  refine ⟨_, natr_run o p hc hp x N, fun j => not_lt_zero ?_⟩
  simp only
  rw [natrOut_def]
  have hw := wildersRec_nn p hp (period_lt hc) _ (trSig_nn x hx) j
  have hcl := (hx (j + (p - 1))).2.2.1
  have hpos := h0 (j + (p - 1))
  rw [F64.lt_iff zero_fin hcl, zero_val] at hpos
  split
  · exact zero_nn
  · refine NN.div_pos ?_ hcl hpos
    rcases hw with h | h | ⟨f, v⟩
    · rw [h, mul_nan]; exact NN.nan
    · rw [h, mul_comm_inf]; exact NN.inf
    · exact Rounds.nn (F64.mul_rounds hundred_fin f) (by rw [hundred_val]; linarith)

/-- medprice of a bar with prices of magnitude up to `2^1022` is a finite double between low and high. -/
theorem medprice_bounds_double (o : Nat → F64) (x : Nat → HL F64)
    (hx : ∀ i, Price (x i).low ∧ Price (x i).high ∧ (x i).low ≤ (x i).high) (N : Nat) :
    ∃ y, medpriceBatch o (pre x N) = .ok (.okay, pre y N) ∧
      ∀ j, IsFin (y j) ∧ val (x j).low ≤ val (y j) ∧ val (y j) ≤ val (x j).high := by
  refine ⟨_, medprice_run o x N, fun j => ?_⟩
  obtain ⟨pl, ph, h⟩ := hx j
  rw [F64.le_iff pl.1 ph.1] at h
  simp only
  obtain ⟨fl, vl⟩ := twice pl
  obtain ⟨fh, vh⟩ := twice ph
  obtain ⟨f, a, b⟩ := (F64.add_rounds ph.1 pl.1).between fl fh (by rw [vl]; linarith) (by rw [vh]; linarith)
  rw [vl] at a
  rw [vh] at b
  obtain ⟨f2, v2⟩ := half
  exact (F64.mul_rounds f f2).between pl.1 ph.1 (by rw [v2]; linarith) (by rw [v2]; linarith)

/-- sum of whole numbers of magnitude at most `B`, where `(p + 1) * B < 2^53`, is exact. -/
theorem sum_exact_double (o : Nat → F64) (p : Nat) (hc : toInt (o 0) = .ok (p : Int)) (hp : 1 ≤ p) (x : Nat → F64)
    (k : Nat → Int) (B : Nat) (hx : ∀ i, x i = ((k i : Int) : F64) ∧ (k i).natAbs ≤ B) (hB : (p + 1) * B < 2 ^ 53) (N : Nat) :
    ∃ y, sumBatch o (pre x N) = .ok (.okay, pre y (N - (p - 1))) ∧
      ∀ j, IsFin (y j) ∧ val (y j) = ((∑ m ∈ Finset.range p, k (j + m) : Int) : Rat) := by
  refine ⟨_, sumBatch_run o p hc hp x N, fun j => ?_⟩
  have hb : ∀ i, (k i).natAbs < 2 ^ 53 := fun i =>
    lt_of_le_of_lt ((hx i).2.trans (Nat.le_mul_of_pos_left B (Nat.succ_pos p))) hB
  have := slide_int x k B p (fun i => ⟨by rw [(hx i).1]; exact int_fin _ (hb i), by rw [(hx i).1]; exact int_val _ (hb i),
    (hx i).2⟩) hB (j + p)
  rwa [Nat.add_sub_cancel, Finset.sum_Ico_eq_sum_range, Nat.add_sub_cancel_left] at this

end

section
variable [Libm]

/-! ### Concrete inputs that meet the hypotheses of the theorems above -/

theorem int_price (n : Int) (h : n.natAbs < 2 ^ 53) : Price ((n : Int) : F64) := by
  refine ⟨int_fin n h, ?_, ?_⟩ <;> rw [int_val n h]
  · have : (-(2 ^ 53) : Int) ≤ n := by omega
    calc (-(2 ^ 1022) : Rat) ≤ -(2 ^ 53) := neg_le_neg (pow_le_pow_right₀ (by norm_num) (by norm_num))
      _ ≤ n := by exact_mod_cast this
  · have : n ≤ (2 ^ 53 : Int) := by omega
    calc (n : Rat) ≤ 2 ^ 53 := by exact_mod_cast this
      _ ≤ 2 ^ 1022 := pow_le_pow_right₀ (by norm_num) (by norm_num)

theorem int_le {m n : Int} (hm : m.natAbs < 2 ^ 53) (hn : n.natAbs < 2 ^ 53) (h : m ≤ n) : ((m : Int) : F64) ≤ ((n : Int) : F64) := by
  rw [F64.le_iff (int_fin m hm) (int_fin n hn), int_val m hm, int_val n hn]; exact_mod_cast h

/-- A price series that keeps moving: 100, 101, 104, 102, 102, 104, 101, 100, … -/
def wave (i : Nat) : Int := 100 + ((i * i % 7 : Nat) : Int)
theorem wave_lo (i : Nat) : 100 ≤ wave i := by unfold wave; omega
theorem wave_hi (i : Nat) : wave i ≤ 106 := by unfold wave; omega
def waveD (i : Nat) : F64 := ((wave i : Int) : F64)
def waveBar (i : Nat) : OHLC F64 :=
  ⟨((wave i : Int) : F64), ((wave i + 3 : Int) : F64), ((wave i - 2 : Int) : F64), ((wave (i + 1) % 3 + wave i : Int) : F64)⟩
def waveHLC (i : Nat) : HLC F64 := ⟨(waveBar i).high, (waveBar i).low, (waveBar i).close⟩
def waveHL (i : Nat) : HL F64 := ⟨(waveBar i).high, (waveBar i).low⟩

theorem waveD_price (i : Nat) : Price (waveD i) := int_price _ (by have := wave_lo i; have := wave_hi i; omega)
theorem waveBar_ok (i : Nat) : Price (waveBar i).low ∧ Price (waveBar i).open ∧ Price (waveBar i).close ∧
    Price (waveBar i).high ∧ (waveBar i).low ≤ (waveBar i).open ∧ (waveBar i).open ≤ (waveBar i).high ∧
    (waveBar i).low ≤ (waveBar i).close ∧ (waveBar i).close ≤ (waveBar i).high := by
  have := wave_lo i; have := wave_hi i
  exact ⟨int_price _ (by omega), int_price _ (by omega), int_price _ (by omega), int_price _ (by omega),
    int_le (by omega) (by omega) (by omega), int_le (by omega) (by omega) (by omega),
    int_le (by omega) (by omega) (by omega), int_le (by omega) (by omega) (by omega)⟩
theorem waveHLC_ok (i : Nat) : IsFin (waveHLC i).high ∧ IsFin (waveHLC i).low ∧ IsFin (waveHLC i).close ∧
    (waveHLC i).low ≤ (waveHLC i).high := by
  have := wave_lo i; have := wave_hi i
  exact ⟨(waveBar_ok i).2.2.2.1.1, (waveBar_ok i).1.1, (waveBar_ok i).2.2.1.1, int_le (by omega) (by omega) (by omega)⟩
theorem opt14 : toInt (opt1 14 0) = .ok ((14 : Nat) : Int) := by kernel_decide

example := max_value_double (opt1 14) 14 opt14 (by decide) waveD (fun i => (waveD_price i).1) 500
example := min_value_double (opt1 14) 14 opt14 (by decide) waveD (fun i => (waveD_price i).1) 500
example := willr_range_double (opt1 14) 14 opt14 (by decide) waveHLC (fun i =>
  ⟨(waveBar_ok i).1, (waveBar_ok i).2.2.1, (waveBar_ok i).2.2.2.1, (waveBar_ok i).2.2.2.2.2.2.1, (waveBar_ok i).2.2.2.2.2.2.2⟩) 500
example := bop_range_double (opt1 14) waveBar waveBar_ok 500
example := rsi_range_double (opt1 14) 14 opt14 (by decide) waveD (fun i => (waveD_price i).1) 500
example := dx_range_double (opt1 14) 14 opt14 (by decide) waveHL (fun i => ⟨(waveHLC_ok i).1, (waveHLC_ok i).2.1⟩) 500
example := dm_nonneg_double (opt1 14) 14 opt14 (by decide) waveHL (fun i => ⟨(waveHLC_ok i).1, (waveHLC_ok i).2.1⟩) 500
example := tr_nonneg_double (opt1 14) waveHLC waveHLC_ok 500
example := atr_nonneg_double (opt1 14) 14 opt14 (by decide) waveHLC waveHLC_ok 500
example := natr_nonneg_double (opt1 14) 14 opt14 (by decide) waveHLC waveHLC_ok (fun i => by
  have := wave_lo i; have := wave_hi i
  have f := (waveHLC_ok i).2.2.1
  rw [F64.lt_iff zero_fin f, zero_val]
  show 0 < val (((wave (i + 1) % 3 + wave i : Int)) : F64)
  rw [int_val _ (by omega)]
  exact_mod_cast (by omega : 0 < wave (i + 1) % 3 + wave i)) 500
example := medprice_bounds_double (opt1 14) waveHL (fun i => ⟨(waveBar_ok i).1, (waveBar_ok i).2.2.2.1, (waveHLC_ok i).2.2.2⟩) 500
example := sum_exact_double (opt1 14) 14 opt14 (by decide) waveD wave 106
  (fun i => ⟨rfl, by have := wave_lo i; have := wave_hi i; omega⟩) (by norm_num) 500
example := ema_const_double (opt1 14) 14 opt14 (by decide) (waveD 3) (waveD_price 3) 500
/-- ema(14) of the wave is between 100 and 106. -/
example : ∃ y, emaBatch (opt1 14) (pre waveD 500) = .ok (.okay, pre y 500) ∧ ∀ j, 100 ≤ val (y j) ∧ val (y j) ≤ 106 := by
  obtain ⟨y, h, hb⟩ := ema_bounds_double (opt1 14) 14 opt14 (by decide) waveD 500
  refine ⟨y, h, fun j => ?_⟩
  have := hb j ((100 : Int) : F64) ((106 : Int) : F64) (int_price _ (by decide)) (int_price _ (by decide)) (fun k _ => by
    have h1 := wave_lo k; have h2 := wave_hi k
    refine ⟨(waveD_price k).1, ?_, ?_⟩ <;> rw [int_val _ (by decide)] <;>
      rw [show val (waveD k) = ((wave k : Int) : Rat) from int_val _ (by omega)]
    · exact_mod_cast h1
    · exact_mod_cast h2)
  rw [int_val _ (by decide), int_val _ (by decide)] at this
  exact_mod_cast this.2

end
end Verif
