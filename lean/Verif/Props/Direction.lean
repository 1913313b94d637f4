/-
C19 (dm, di, dx, adx, adxr).
-/
import Verif.Proof.Direction
import Verif.Proof.WindowField
import Verif.Spec.Direction
import Verif.Core.RatInst

set_option linter.unusedSectionVars false

namespace Verif
open Spec Finset

section Any
variable {R : Type} [Num R]

/-! ### Any arithmetic: contract, refusal, overflow -/

theorem dm_contract (o : Nat → R) (p : Nat) (hc : toInt (o 0) = .ok (p : Int)) (hp : 1 ≤ p) :
    Contract dmStart dmBatch o (p - 1) :=
  (dm_run o p hc hp).contract (by simp [dmStart, hc, startM1_ok hc hp])
theorem dm_refuses (o : Nat → R) (p : Int) (hc : toInt (o 0) = .ok p) (hp : p < 1) :
    Refuses dmBatch o := by intro xs; simp [dmBatch, hc, hp]

theorem di_contract (o : Nat → R) (p : Nat) (hc : toInt (o 0) = .ok (p : Int)) (hp : 1 ≤ p) :
    Contract dmStart diBatch o (p - 1) :=
  (di_run o p hc hp).contract (by simp [dmStart, hc, startM1_ok hc hp])
theorem di_refuses (o : Nat → R) (p : Int) (hc : toInt (o 0) = .ok p) (hp : p < 1) :
    Refuses diBatch o := by intro xs; simp [diBatch, hc, hp]

theorem dx_contract (o : Nat → R) (p : Nat) (hc : toInt (o 0) = .ok (p : Int)) (hp : 1 ≤ p) :
    Contract dmStart dxBatch o (p - 1) :=
  (dx_run o p hc hp).contract (by simp [dmStart, hc, startM1_ok hc hp])
theorem dx_refuses (o : Nat → R) (p : Int) (hc : toInt (o 0) = .ok p) (hp : p < 1) :
    Refuses dxBatch o := by intro xs; simp [dxBatch, hc, hp]

/-- adx, all periods for which the start index fits an `int`. -/
theorem adx_contract_partial (o : Nat → R) (p : Nat) (hc : toInt (o 0) = .ok (p : Int)) (hp : 2 ≤ p)
    (hb : (p - 1) * 2 ≤ 2147483647) : Contract adxStart adxBatch o ((p - 1) * 2) := by
  refine (adx_run o p hc hp hb).contract ?_
  unfold adxStart
  rw [hc, bind_ok, startM1_ok hc (by omega), bind_ok]
  exact startM1x_ok 2 hb
theorem adx_refuses (o : Nat → R) (p : Int) (hc : toInt (o 0) = .ok p) (hp : p < 2) :
    Refuses adxBatch o := by intro xs; simp [adxBatch, hc, hp]
/-- For longer periods the start index overflows. -/
theorem adx_overflow (o : Nat → R) (p : Nat) (hc : toInt (o 0) = .ok (p : Int)) (hb : 2147483647 < (p - 1) * 2)
    (xs : List (HL R)) : adxBatch o xs = .error .intRange := by
  have hs : adxStart o = .error .intRange := by
    unfold adxStart
    rw [hc, bind_ok, startM1_ok hc (by omega), bind_ok, i32, if_neg (by omega)]
  unfold adxBatch
  rw [hc, bind_ok, if_neg (by omega), hs]
  rfl

/-- adxr, all periods for which the start index fits an `int`. -/
theorem adxr_contract_partial (o : Nat → R) (p : Nat) (hc : toInt (o 0) = .ok (p : Int)) (hp : 2 ≤ p)
    (hb : (p - 1) * 3 ≤ 2147483647) : Contract adxrStart adxrBatch o ((p - 1) * 3) := by
  refine (adxr_run o p hc hp hb).contract ?_
  unfold adxrStart
  rw [hc, bind_ok, startM1_ok hc (by omega), bind_ok]
  exact startM1x_ok 3 hb
theorem adxr_refuses (o : Nat → R) (p : Int) (hc : toInt (o 0) = .ok p) (hp : p < 2) :
    Refuses adxrBatch o := by intro xs; simp [adxrBatch, hc, hp]
/-- For longer periods the start index overflows. -/
theorem adxr_overflow (o : Nat → R) (p : Nat) (hc : toInt (o 0) = .ok (p : Int)) (hb : 2147483647 < (p - 1) * 3)
    (xs : List (HL R)) : adxrBatch o xs = .error .intRange := by
  have hs : adxrStart o = .error .intRange := by
    unfold adxrStart
    rw [hc, bind_ok, startM1_ok hc (by omega), bind_ok, i32, if_neg (by omega)]
  unfold adxrBatch
  rw [hc, bind_ok, if_neg (by omega), hs]
  rfl

end Any

section Field
variable {R : Type} [Field R] [LinearOrder R] [IsStrictOrderedRing R] [CMath R]

/-! ### Values -/

theorem dirSig_eq (x : Nat → HL R) (k : Nat) : dirUp x k = plusDM x k ∧ dirDown x k = minusDM x k := by
  unfold dirUp dirDown dirSig plusDM minusDM upMove downMove calcDirection
  generalize (x (k + 1)).high - (x k).high = u
  generalize (x k).low - (x (k + 1)).low = d
  simp only [Int.cast_zero]
  by_cases hu : u < 0
  · rw [if_pos hu, max_eq_right hu.le]
    by_cases hd : d < 0
    · simp [hd, max_eq_right hd.le]
    · have hd' := not_lt.1 hd
      simp only [if_neg hd, max_eq_left hd', if_pos hd']
      rcases lt_or_eq_of_le hd' with h | h
      · simp [h, not_le.2 h]
      · simp [← h]
  · have hu' := not_lt.1 hu
    rw [if_neg hu, max_eq_left hu']
    by_cases h : d < u
    · rw [if_pos h]
      have h2 : max d 0 ≤ u := max_le h.le hu'
      simp only [lt_irrefl, if_false, if_neg hu, if_pos h2]
      refine ⟨trivial, ?_⟩
      split
      · rename_i h3
        rcases le_total d 0 with hd | hd
        · rw [max_eq_right hd]
        · rw [max_eq_left hd] at h3; exact absurd h (not_lt.2 h3)
      · rfl
    · have h' := not_lt.1 h
      have hd : 0 ≤ d := hu'.trans h'
      rw [if_neg h]
      simp only [if_neg (not_lt.2 hd), max_eq_left hd, if_pos h']
      rcases lt_or_eq_of_le h' with h2 | h2
      · simp [h2, not_le.2 h2]
      · simp [h2]

theorem wSum_eq (p : Nat) (hp : 1 ≤ p) (d : Nat → R) (j : Nat) : wSum p d j = wilderSum p d j := by
  have h : (p : R) ≠ 0 := by exact_mod_cast (by omega : p ≠ 0)
  induction j with
  | zero => simp [wSum, wilderSum, sumTo_eq]
  | succ j ih =>
    rw [wSum, wilderSum, ih, dmPer]
    simp only [Int.cast_natCast, Int.cast_one]
    field_simp

theorem dirUp_eq (x : Nat → HL R) : dirUp x = plusDM x := funext fun k => (dirSig_eq x k).1
theorem dirDown_eq (x : Nat → HL R) : dirDown x = minusDM x := funext fun k => (dirSig_eq x k).2

/-- dm: Wilder's running sums of plus and minus directional movement. -/
theorem dm_value (o : Nat → R) (p : Nat) (hc : toInt (o 0) = .ok (p : Int)) (hp : 1 ≤ p) :
    Computes dmBatch o (p - 1) (fun x j => ⟨wilderSum p (plusDM x) j, wilderSum p (minusDM x) j⟩) :=
  (dm_run o p hc hp).congr fun x j => by rw [wSum_eq p hp, wSum_eq p hp, dirUp_eq, dirDown_eq]

theorem plusDM_nonneg (x : Nat → HL R) (k : Nat) : 0 ≤ plusDM x k := by
  unfold plusDM; split
  · exact le_max_right _ _
  · exact le_rfl
theorem minusDM_nonneg (x : Nat → HL R) (k : Nat) : 0 ≤ minusDM x k := by
  unfold minusDM; split
  · exact le_max_right _ _
  · exact le_rfl

theorem wilderSum_mono (p : Nat) (hp : 1 ≤ p) (d e : Nat → R) (h : ∀ k, d k ≤ e k) (j : Nat) :
    wilderSum p d j ≤ wilderSum p e j := by
  have h1 : (1 : R) ≤ p := by exact_mod_cast hp
  have h2 : (0 : R) < p := by linarith
  induction j with
  | zero => exact sum_le_sum fun k _ => h k
  | succ j ih =>
    simp only [wilderSum]
    have e1 : ∀ a : R, a - a / p = a * ((p - 1) / p) := fun a => by field_simp
    rw [e1, e1]
    have h3 : (0 : R) ≤ (p - 1) / p := div_nonneg (by linarith) h2.le
    have := mul_le_mul_of_nonneg_right ih h3
    linarith [h (j + (p - 1))]

theorem wilderSum_zero (p : Nat) (j : Nat) : wilderSum p (fun _ => (0 : R)) j = 0 := by
  induction j with
  | zero => simp [wilderSum]
  | succ j ih => simp [wilderSum, ih]

theorem wilderSum_nonneg (p : Nat) (hp : 1 ≤ p) (d : Nat → R) (h : ∀ k, 0 ≤ d k) (j : Nat) : 0 ≤ wilderSum p d j := by
  have := wilderSum_mono p hp (fun _ => 0) d h j
  rwa [wilderSum_zero] at this

/-- dm is non-negative. -/
theorem dm_nonneg (o : Nat → R) (p : Nat) (hc : toInt (o 0) = .ok (p : Int)) (hp : 1 ≤ p) (x : Nat → HL R) (N : Nat) :
    ∃ y, dmBatch o (pre x N) = .ok (.okay, pre y (N - (p - 1))) ∧ ∀ j, 0 ≤ (y j).plus ∧ 0 ≤ (y j).minus :=
  ⟨_, dm_value o p hc hp x N, fun j => ⟨wilderSum_nonneg p hp _ (plusDM_nonneg x) j,
    wilderSum_nonneg p hp _ (minusDM_nonneg x) j⟩⟩

/-- With period 1 dm reports the movement of each bar: plus and minus are not both positive, except where the high
rose exactly as much as the low fell (see `dm_exclusive_violates`). -/
theorem dm_exclusive_partial (o : Nat → R) (hc : toInt (o 0) = .ok ((1 : Nat) : Int)) (x : Nat → HL R) (N : Nat) :
    ∃ y, dmBatch o (pre x N) = .ok (.okay, pre y N) ∧ ∀ k, ((x (k + 1)).high - (x k).high ≠ (x k).low - (x (k + 1)).low) →
      ¬ (0 < (y (k + 1)).plus ∧ 0 < (y (k + 1)).minus) := by
  refine ⟨_, dm_value o 1 hc le_rfl x N, fun k hk => ?_⟩
  simp only [wilderSum, Nat.cast_one, div_one, sub_self, zero_add, Nat.sub_self, Nat.add_zero]
  rintro ⟨h1, h2⟩
  unfold plusDM at h1
  unfold minusDM at h2
  split at h1
  · rename_i h3
    split at h2
    · rename_i h4
      have h5 := le_antisymm h3 h4
      unfold upMove at h1 h5
      unfold downMove at h2 h5
      rcases lt_max_iff.1 h1 with h | h
      · rcases lt_max_iff.1 h2 with h' | h'
        · rw [max_eq_left h.le, max_eq_left h'.le] at h5; exact hk h5.symm
        · exact lt_irrefl _ h'
      · exact lt_irrefl _ h
    · exact lt_irrefl _ h2
  · exact lt_irrefl _ h1

/-- Where the high rises exactly as much as the low falls, both movements are reported as positive. -/
theorem dm_exclusive_violates (o : Nat → R) (hc : toInt (o 0) = .ok ((1 : Nat) : Int)) (h l d : R) (hd : 0 < d) :
    dmBatch o [⟨h, l⟩, ⟨h + d, l - d⟩] = .ok (.okay, [⟨0, 0⟩, ⟨d, d⟩]) := by
  have e : ([⟨h, l⟩, ⟨h + d, l - d⟩] : List (HL R)) = pre (fun k => if k = 0 then ⟨h, l⟩ else ⟨h + d, l - d⟩) 2 := rfl
  rw [e, dm_value o 1 hc le_rfl]
  simp [pre, List.range_succ, wilderSum, plusDM, minusDM, upMove, downMove, max_eq_left hd.le]

/-- di: the running sums of directional movement in percent of the running sum of the true range (0 where the movement
is 0). -/
theorem di_value [LawfulAbs R] (o : Nat → R) (p : Nat) (hc : toInt (o 0) = .ok (p : Int)) (hp : 1 ≤ p) :
    Computes diBatch o (p - 1) (fun x j =>
      let bars := fun k => (⟨(x k).high, (x k).low⟩ : HL R)
      let plus := wilderSum p (plusDM bars) j
      let minus := wilderSum p (minusDM bars) j
      let tr := wilderSum p (fun k => Spec.trueRange x (k + 1)) j
      ⟨if plus = 0 then 0 else 100 * plus / tr, if minus = 0 then 0 else 100 * minus / tr⟩) :=
  (di_run o p hc hp).congr fun x j => by
    simp only [diVal, wSum_eq p hp, dirUp_eq, dirDown_eq]
    rw [show trSig1 x = fun k => Spec.trueRange x (k + 1) from funext fun k => trSig_eq x (k + 1)]
    rw [show hl x = fun k => (⟨(x k).high, (x k).low⟩ : HL R) from rfl]
    simp [diOut]

theorem plusDM_le_tr (x : Nat → HLC R) (hx : ∀ k, (x k).low ≤ (x k).close ∧ (x k).close ≤ (x k).high) (k : Nat) :
    plusDM (fun k => (⟨(x k).high, (x k).low⟩ : HL R)) k ≤ Spec.trueRange x (k + 1) := by
  have h0 : 0 ≤ Spec.trueRange x (k + 1) := trueRange_nonneg x _ ((hx _).1.trans (hx _).2)
  unfold plusDM
  split
  · refine max_le ?_ h0
    unfold Spec.trueRange
    rw [if_neg (by omega), Nat.add_sub_cancel]
    refine le_max_of_le_right (le_max_of_le_left (le_trans ?_ (le_abs_self _)))
    show (x (k + 1)).high - (x k).high ≤ _
    linarith [(hx k).2]
  · exact h0

theorem minusDM_le_tr (x : Nat → HLC R) (hx : ∀ k, (x k).low ≤ (x k).close ∧ (x k).close ≤ (x k).high) (k : Nat) :
    minusDM (fun k => (⟨(x k).high, (x k).low⟩ : HL R)) k ≤ Spec.trueRange x (k + 1) := by
  have h0 : 0 ≤ Spec.trueRange x (k + 1) := trueRange_nonneg x _ ((hx _).1.trans (hx _).2)
  unfold minusDM
  split
  · refine max_le ?_ h0
    unfold Spec.trueRange
    rw [if_neg (by omega), Nat.add_sub_cancel]
    refine le_max_of_le_right (le_max_of_le_right (le_trans ?_ (neg_abs_le' _)))
    show (x k).low - (x (k + 1)).low ≤ _
    linarith [(hx k).1]
  · exact h0
where
  neg_abs_le' (a : R) : -a ≤ |a| := neg_le_abs a

/-- di lies in [0, 100] when low ≤ close ≤ high. -/
theorem di_range [LawfulAbs R] (o : Nat → R) (p : Nat) (hc : toInt (o 0) = .ok (p : Int)) (hp : 1 ≤ p) (x : Nat → HLC R)
    (hx : ∀ k, (x k).low ≤ (x k).close ∧ (x k).close ≤ (x k).high) (N : Nat) :
    ∃ y, diBatch o (pre x N) = .ok (.okay, pre y (N - (p - 1))) ∧
      ∀ j, (0 ≤ (y j).plus ∧ (y j).plus ≤ 100) ∧ (0 ≤ (y j).minus ∧ (y j).minus ≤ 100) := by
  refine ⟨_, di_value o p hc hp x N, fun j => ?_⟩
  have key : ∀ d : Nat → R, (∀ k, 0 ≤ d k) → (∀ k, d k ≤ Spec.trueRange x (k + 1)) →
      (0 : R) ≤ (if wilderSum p d j = 0 then 0 else 100 * wilderSum p d j / wilderSum p (fun k => Spec.trueRange x (k + 1)) j) ∧
      (if wilderSum p d j = 0 then 0 else 100 * wilderSum p d j / wilderSum p (fun k => Spec.trueRange x (k + 1)) j) ≤ 100 := by
    intro d h0 h1
    split
    · constructor <;> norm_num
    · rename_i h
      have h2 := wilderSum_nonneg p hp d h0 j
      have h3 : 0 < wilderSum p d j := lt_of_le_of_ne h2 (Ne.symm h)
      have h4 := wilderSum_mono p hp d _ h1 j
      have h5 : 0 < wilderSum p (fun k => Spec.trueRange x (k + 1)) j := lt_of_lt_of_le h3 h4
      rw [le_div_iff₀ h5, div_le_iff₀ h5]
      constructor <;> linarith
  exact ⟨key _ (plusDM_nonneg _) (plusDM_le_tr x hx), key _ (minusDM_nonneg _) (minusDM_le_tr x hx)⟩

theorem dxSig_eq [LawfulAbs R] (p : Nat) (hp : 1 ≤ p) (x : Nat → HL R) (j : Nat) :
    dxSig p x j = dxOf (wilderSum p (plusDM x) j) (wilderSum p (minusDM x) j) := by
  simp only [dxSig, dxOut, wSum_eq p hp, dirUp_eq, dirDown_eq, LawfulAbs.fabs_eq, dxOf]
  simp [mul_comm]

/-- dx: the directional index of the running sums of plus and minus directional movement. -/
theorem dx_value [LawfulAbs R] (o : Nat → R) (p : Nat) (hc : toInt (o 0) = .ok (p : Int)) (hp : 1 ≤ p) :
    Computes dxBatch o (p - 1) (fun x j => dxOf (wilderSum p (plusDM x) j) (wilderSum p (minusDM x) j)) :=
  (dx_run o p hc hp).congr fun x j => dxSig_eq p hp x j

theorem dxOf_range (a b : R) (ha : 0 ≤ a) (hb : 0 ≤ b) : 0 ≤ dxOf a b ∧ dxOf a b ≤ 100 := by
  unfold dxOf
  split
  · constructor <;> norm_num
  · rename_i h
    have h1 : 0 < a + b := lt_of_le_of_ne (by linarith) (Ne.symm h)
    have h2 : 0 ≤ |a - b| / (a + b) := by positivity
    have h3 : |a - b| / (a + b) ≤ 1 := by
      rw [div_le_one h1, abs_le]; constructor <;> linarith
    constructor <;> linarith

/-- dx lies in [0, 100]. -/
theorem dx_range [LawfulAbs R] (o : Nat → R) (p : Nat) (hc : toInt (o 0) = .ok (p : Int)) (hp : 1 ≤ p) (x : Nat → HL R)
    (N : Nat) : ∃ y, dxBatch o (pre x N) = .ok (.okay, pre y (N - (p - 1))) ∧ ∀ j, 0 ≤ y j ∧ y j ≤ 100 :=
  ⟨_, dx_value o p hc hp x N, fun j => dxOf_range _ _ (wilderSum_nonneg p hp _ (plusDM_nonneg x) j)
    (wilderSum_nonneg p hp _ (minusDM_nonneg x) j)⟩

theorem adxVal_eq (p : Nat) (hp : 1 ≤ p) (x : Nat → HL R) (j : Nat) : adxVal p x j = wilder p (dxSig p x) j := by
  have h : (p : R) ≠ 0 := by exact_mod_cast (by omega : p ≠ 0)
  have h0 : ∀ i, i < p → adxAcc p x i = ∑ k ∈ range (i + 1), dxSig p x k := by
    intro i
    induction i with
    | zero => simp [adxAcc]
    | succ i ih => intro hi; rw [adxAcc, if_pos hi, ih (by omega), ← sum_range_succ]
  unfold adxVal wilder
  induction j with
  | zero =>
    rw [Nat.zero_add, h0 _ (by omega), show p - 1 + 1 = p by omega]
    simp [ema, winMean, winSum, div_eq_mul_inv]
  | succ j ih =>
    have e : j + 1 + (p - 1) = j + (p - 1) + 1 := by omega
    rw [e, adxAcc, if_neg (by omega), ema, ← ih, if_neg (by omega), show j + 1 - 1 + p = j + (p - 1) + 1 by omega, dmPer]
    simp only [Int.cast_natCast, Int.cast_one]
    field_simp
    ring

/-- adx: Wilder's smoothing of dx. -/
theorem adx_value_partial [LawfulAbs R] (o : Nat → R) (p : Nat) (hc : toInt (o 0) = .ok (p : Int)) (hp : 2 ≤ p)
    (hb : (p - 1) * 2 ≤ 2147483647) : Computes adxBatch o ((p - 1) * 2) (fun x =>
      wilder p fun k => dxOf (wilderSum p (plusDM x) k) (wilderSum p (minusDM x) k)) :=
  (adx_run o p hc hp hb).congr fun x j => by
    rw [adxVal_eq p (by omega), show dxSig p x = _ from funext (dxSig_eq p (by omega) x)]

/-- adxr: mean of adx and of adx `period - 1` bars before. -/
theorem adxr_value_partial [LawfulAbs R] (o : Nat → R) (p : Nat) (hc : toInt (o 0) = .ok (p : Int)) (hp : 2 ≤ p)
    (hb : (p - 1) * 3 ≤ 2147483647) : Computes adxrBatch o ((p - 1) * 3) (fun x j =>
      let adx := wilder p fun k => dxOf (wilderSum p (plusDM x) k) (wilderSum p (minusDM x) k)
      (adx (j + (p - 1)) + adx j) / 2) :=
  (adxr_run o p hc hp hb).congr fun x j => by
    simp only [adxVal_eq p (show 1 ≤ p by omega), show dxSig p x = _ from funext (dxSig_eq p (by omega) x)]
    push_cast
    ring

/-- adx and adxr lie in [0, 100]. -/
theorem adx_adxr_range [LawfulAbs R] (o : Nat → R) (p : Nat) (hc : toInt (o 0) = .ok (p : Int)) (hp : 2 ≤ p)
    (hb : (p - 1) * 3 ≤ 2147483647) (x : Nat → HL R) (N : Nat) :
    ∃ y z, adxBatch o (pre x N) = .ok (.okay, pre y (N - (p - 1) * 2)) ∧
      adxrBatch o (pre x N) = .ok (.okay, pre z (N - (p - 1) * 3)) ∧
      ∀ j, (0 ≤ y j ∧ y j ≤ 100) ∧ (0 ≤ z j ∧ z j ≤ 100) := by
  have h : ∀ j, 0 ≤ wilder p (fun k => dxOf (wilderSum p (plusDM x) k) (wilderSum p (minusDM x) k)) j ∧
      wilder p (fun k => dxOf (wilderSum p (plusDM x) k) (wilderSum p (minusDM x) k)) j ≤ 100 := fun j =>
    wilder_bounds p (by omega) _ j 0 100 fun k _ => dxOf_range _ _ (wilderSum_nonneg p (by omega) _ (plusDM_nonneg x) k)
      (wilderSum_nonneg p (by omega) _ (minusDM_nonneg x) k)
  refine ⟨_, _, adx_value_partial o p hc hp (by omega) x N, adxr_value_partial o p hc hp hb x N, fun j => ⟨h j, ?_⟩⟩
  have h1 := h j
  have h2 := h (j + (p - 1))
  simp only
  constructor <;> linarith [h1.1, h1.2, h2.1, h2.2]

end Field

/- Concrete runs and instances of the hypotheses. -/
example : toInt (opts [2] 0) = .ok ((2 : Nat) : Int) ∧ (2 - 1) * 3 ≤ 2147483647 := by decide +kernel
example : toInt (opts [1073741825] 0) = .ok ((1073741825 : Nat) : Int) ∧ 2147483647 < (1073741825 - 1) * 2 := by
  decide +kernel
example : dmBatch (opts [2]) [⟨3, 1⟩, ⟨5, 2⟩, ⟨6, 0⟩] = .ok (.okay, [⟨2, 0⟩, ⟨1, 2⟩]) := by decide +kernel
example : dmBatch (opts [1]) [⟨3, 1⟩, ⟨5, 2⟩, ⟨6, 1⟩] = .ok (.okay, [⟨0, 0⟩, ⟨2, 0⟩, ⟨1, 1⟩]) := by decide +kernel
example : diBatch (opts [2]) [⟨3, 1, 2⟩, ⟨5, 2, 3⟩, ⟨6, 0, 1⟩] = .ok (.okay, [⟨200/3, 0⟩, ⟨100/(15/2), 200/(15/2)⟩]) := by
  decide +kernel
example : dxBatch (opts [2]) [⟨3, 1⟩, ⟨5, 2⟩, ⟨6, 0⟩] = .ok (.okay, [100, 100/3]) := by decide +kernel
example : adxBatch (opts [2]) [⟨3, 1⟩, ⟨5, 2⟩, ⟨6, 0⟩] = .ok (.okay, [200/3]) := by decide +kernel
example : adxrBatch (opts [2]) [⟨3, 1⟩, ⟨5, 2⟩, ⟨6, 0⟩, ⟨6, 0⟩] = .ok (.okay, [175/3]) := by decide +kernel

end Verif
