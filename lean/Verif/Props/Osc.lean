/-
C43 (cci, cvi, mass, ultosc, abands, msw).
-/
import Verif.Proof.Osc
import Verif.Proof.WindowField
import Verif.Proof.ExtremumField
import Verif.Props.Stats
import Verif.Props.Volume
import Verif.Spec.Osc
import Verif.Core.RatInst

set_option linter.unusedSectionVars false

namespace Verif
open Spec Finset

section Any
variable {R : Type} [Num R]

/-! ### Any arithmetic: contract, refusal, overflow -/

/-- cci, all periods with `period * 2` in the range of `int`. -/
theorem cci_contract_partial (o : Nat → R) (p : Nat) (hc : toInt (o 0) = .ok (p : Int)) (hp : 1 ≤ p)
    (hb : p * 2 ≤ 2147483647) : Contract cciStart cciBatch o ((p - 1) * 2) :=
  (cci_run o p hc hp hb).contract (cciStart_ok hc hp (by omega))
theorem cci_refuses (o : Nat → R) (p : Int) (hc : toInt (o 0) = .ok p) (hp : p < 1) :
    Refuses cciBatch o := by intro xs; simp [cciBatch, hc, hp]
/-- cci with a period whose start index `(period - 1) * 2` is not an `int`. -/
theorem cci_overflow (o : Nat → R) (p : Nat) (hc : toInt (o 0) = .ok (p : Int)) (hb : 2147483647 < (p - 1) * 2)
    (xs : List (HLC R)) : cciBatch o xs = .error .intRange := by
  have hs : cciStart o = .error .intRange := by
    unfold cciStart
    rw [hc, bind_ok, startM1_ok hc (by omega), bind_ok, i32, if_neg (by omega)]
  unfold cciBatch
  rw [hc, bind_ok, if_neg (by omega), hs]
  rfl

/-- cvi, periods from 2 on with `period * 2` in the range of `int`. -/
theorem cvi_contract_partial (o : Nat → R) (p : Nat) (hc : toInt (o 0) = .ok (p : Int)) (hp : 2 ≤ p)
    (hb : p * 2 ≤ 2147483647) : Contract cviStart cviBatch o (p * 2 - 1) :=
  (cvi_run o p hc hp hb).contract (cviStart_ok hc (by omega) hb)
theorem cvi_refuses (o : Nat → R) (p : Int) (hc : toInt (o 0) = .ok p) (hp : p < 1) :
    Refuses cviBatch o := by intro xs; simp [cviBatch, hc, hp]
/-- cvi with a period for which `period * 2` is not an `int`. -/
theorem cvi_overflow (o : Nat → R) (p : Nat) (hc : toInt (o 0) = .ok (p : Int)) (hb : 2147483647 < p * 2)
    (xs : List (HL R)) : cviBatch o xs = .error .intRange := by
  have hs : cviStart o = .error .intRange := by
    unfold cviStart
    rw [hc, bind_ok, i32, if_neg (by omega)]
    rfl
  unfold cviBatch
  rw [hc, bind_ok, if_neg (by omega), hs]
  rfl
/-- cvi accepts period 1, but then reads the lag buffer before anything was put into it. -/
theorem cvi_violates (o : Nat → R) (hc : toInt (o 0) = .ok (1 : Int)) (x : Nat → HL R) (N : Nat) (hN : 2 ≤ N) :
    cviBatch o (pre x N) = .error .uninit := by
  unfold cviBatch
  rw [hc, bind_ok, show cviStart o = .ok (1 : Int) from cviStart_ok (p := 1) hc le_rfl (by omega)]
  simp only [bind_ok, length_pre, pure_eq]
  rw [if_neg (by omega), if_neg (by omega), rd_zero _ _ (by omega), bind_ok, forUp_empty (by omega), bind_ok]
  exact bind_err (forUp_err 1 1 (fun _ => ((x 0).high - (x 0).low, TiBuf.new 1, [])) rfl rfl le_rfl (by omega)
    (fun i h1 h2 => by omega) (by rw [rd_pre_nat _ _ _ (by omega)]; rfl))

/-- mass, all periods whose start index fits an `int`. -/
theorem mass_contract_partial (o : Nat → R) (p : Nat) (hc : toInt (o 0) = .ok (p : Int)) (hp : 1 ≤ p)
    (hb : 15 + p ≤ 2147483647) : Contract massStart massBatch o (15 + p) :=
  (mass_run o p hc hp hb).contract (massStart_ok hc hp hb)
theorem mass_refuses (o : Nat → R) (p : Int) (hc : toInt (o 0) = .ok p) (hp : p < 1) :
    Refuses massBatch o := by intro xs; simp [massBatch, hc, hp]
/-- mass with a period whose start index `16 + period - 1` is not an `int`. -/
theorem mass_overflow (o : Nat → R) (p : Nat) (hc : toInt (o 0) = .ok (p : Int)) (hb : 2147483647 < 15 + p)
    (xs : List (HL R)) : massBatch o xs = .error .intRange := by
  have hs : massStart o = .error .intRange := by
    unfold massStart
    rw [hc, bind_ok, startM1_ok hc (by omega), bind_ok, i32, if_neg (by omega)]
  unfold massBatch
  rw [hc, bind_ok, if_neg (by omega), hs]
  rfl

/-- ultosc with short ≤ medium < long. -/
theorem ultosc_contract_partial (o : Nat → R) (s m l : Nat) (hs : toInt (o 0) = .ok (s : Int))
    (hm : toInt (o 1) = .ok (m : Int)) (hl : toInt (o 2) = .ok (l : Int)) (h1 : 1 ≤ s) (h2 : s ≤ m) (h3 : m < l) :
    Contract ultoscStart ultoscBatch o l := (ultosc_run o s m l hs hm hl h1 h2 h3).contract (by simp [ultoscStart, hl])
theorem ultosc_refuses (o : Nat → R) (s m l : Int) (hs : toInt (o 0) = .ok s) (hm : toInt (o 1) = .ok m)
    (hl : toInt (o 2) = .ok l) (h : s < 1 ∨ m < s ∨ l < m) : Refuses ultoscBatch o := by
  intro xs
  unfold ultoscBatch
  simp only [hs, hm, hl, bind_ok, pure_eq]
  by_cases h1 : s < 1
  · rw [if_pos h1]
  · by_cases h2 : m < s
    · rw [if_neg h1, if_pos h2]
    · rw [if_neg h1, if_neg h2, if_pos (by omega)]

/-- With medium = long ultosc subtracts the bar it has just added, and after 2 * long bars it reads the cell before the
buffer. -/
theorem ultosc_violates (o : Nat → R) (s l : Nat) (hs : toInt (o 0) = .ok (s : Int))
    (hm : toInt (o 1) = .ok (l : Int)) (hl : toInt (o 2) = .ok (l : Int)) (h1 : 1 ≤ s) (h2 : s ≤ l) (x : Nat → HLC R) (N : Nat)
    (hN : 2 * l < N) : ultoscBatch o (pre x N) = .error .oobRead := by
  unfold ultoscBatch
  simp only [hs, hm, hl, bind_ok, ultoscStart, length_pre, pure_eq]
  rw [if_neg (by omega), if_neg (by omega), if_neg (by omega), if_neg (by omega)]
  refine bind_err (forUp_inv_err (fun i t => t.1 = TiBuf.after (bpSig x) l (i - 1) ∧ t.2.1 = TiBuf.after (rSig x) l (i - 1) ∧
    t.2.2.2.2.length = i - l) 1 (2 * l) rfl ⟨rfl, rfl, by simp; omega⟩ (by omega) (by omega) ?_ ?_)
  · rintro i ⟨b, r, ss, ms, out⟩ hi1 hi ⟨rfl, rfl, hout⟩
    obtain ⟨k, rfl⟩ : ∃ k, i = k + 1 := ⟨i - 1, by omega⟩
    simp only [Nat.add_sub_cancel] at hout ⊢
    rw [rd_pre_nat _ _ _ (by omega), bind_ok, rd_at k (by omega) (by omega), bind_ok,
      TiBuf.after_push _ _ (by omega) _ _ (by rfl), bind_ok, TiBuf.after_push _ _ (by omega) _ _ (by rfl), bind_ok]
    have H1 := TiBuf.after_holds (bpSig x) l (by omega) (k + 1)
    have H2 := TiBuf.after_holds (rSig x) l (by omega) (k + 1)
    have sub : ∀ (q : Nat), q ≤ l → q < k + 1 → ∃ j : Nat, j < k + 1 ∧ k + 1 ≤ j + l ∧
        ultoscIdx (TiBuf.after (bpSig x) l (k + 1)) q l = (j % l : Nat) := by
      intro q hq1 hq2
      by_cases hq : q < l
      · exact ⟨k + 1 - 1 - q, by omega, by omega, ultoscIdx_ok H1.index q hq hq2⟩
      · obtain rfl : q = l := by omega
        refine ⟨k, by omega, by omega, ?_⟩
        obtain ⟨r, rfl⟩ : ∃ r, k = q + r := ⟨k - q, by omega⟩
        unfold ultoscIdx
        rw [H1.index, show q + r + 1 = r + 1 + q by omega, show q + r = r + q by omega, Nat.add_mod_right, Nat.add_mod_right,
          Nat.mod_eq_of_lt (by omega), Nat.mod_eq_of_lt (by omega), if_pos (by omega)]
        omega
    by_cases hs1 : s < k + 1
    · obtain ⟨j, hj1, hj2, hj⟩ := sub s (by omega) hs1
      rw [if_pos (by omega), hj, TiBuf.at_hist H1.toQHolds (by omega) j hj1 hj2 _ rfl, bind_ok,
        TiBuf.at_hist H2.toQHolds (by omega) j hj1 hj2 _ rfl, bind_ok, bind_ok]
      by_cases hl1 : l < k + 1
      · obtain ⟨j, hj1, hj2, hj⟩ := sub l le_rfl hl1
        rw [if_pos (by omega), hj, TiBuf.at_hist H1.toQHolds (by omega) j hj1 hj2 _ rfl, bind_ok,
          TiBuf.at_hist H2.toQHolds (by omega) j hj1 hj2 _ rfl, bind_ok, bind_ok, if_pos (by omega), wr_ok _ _ _ (by omega)]
        exact ⟨_, rfl, rfl, rfl, by simp; omega⟩
      · rw [if_neg (by omega), bind_ok]
        by_cases hl2 : l ≤ k + 1
        · rw [if_pos (by omega), wr_ok _ _ _ (by omega)]
          exact ⟨_, rfl, rfl, rfl, by simp; omega⟩
        · rw [if_neg (by omega)]
          exact ⟨_, rfl, rfl, rfl, by simp; omega⟩
    · rw [if_neg (by omega), bind_ok, if_neg (by omega), bind_ok]
      by_cases hl2 : l ≤ k + 1
      · rw [if_pos (by omega), wr_ok _ _ _ (by omega)]
        exact ⟨_, rfl, rfl, rfl, by simp; omega⟩
      · rw [if_neg (by omega)]
        exact ⟨_, rfl, rfl, rfl, by simp; omega⟩
  · rintro ⟨b, r, ss, ms, out⟩ ⟨rfl, rfl, hout⟩
    obtain ⟨k, hk⟩ : ∃ k, 2 * l = k + 1 := ⟨2 * l - 1, by omega⟩
    rw [hk]
    simp only [Nat.add_sub_cancel]
    rw [rd_pre_nat _ _ _ (by omega), bind_ok, rd_at k (by omega) (by omega), bind_ok,
      TiBuf.after_push _ _ (by omega) _ _ (by rfl), bind_ok, TiBuf.after_push _ _ (by omega) _ _ (by rfl), bind_ok]
    have H1 := TiBuf.after_holds (bpSig x) l (by omega) (k + 1)
    have H2 := TiBuf.after_holds (rSig x) l (by omega) (k + 1)
    have bad : ∀ {β : Type} (g : R → M β), ((TiBuf.after (bpSig x) l (k + 1)).at_
        (ultoscIdx (TiBuf.after (bpSig x) l (k + 1)) l l) >>= g) = .error .oobRead := by
      intro β g
      refine bind_err ?_
      have : ultoscIdx (TiBuf.after (bpSig x) l (k + 1)) l l = -1 := by
        unfold ultoscIdx
        rw [H1.index, ← hk, Nat.mul_mod_left, if_pos (by omega)]
        omega
      rw [this]
      exact bind_err (rd_oob _ _ (Or.inl (by omega)))
    rw [if_pos (show (s : Int) < ((k + 1 : Nat) : Int) by omega)]
    by_cases hs1 : s = l
    · subst hs1
      exact bind_err (bad _)
    · rw [ultoscIdx_ok H1.index s (by omega) (by omega),
        TiBuf.at_hist H1.toQHolds (by omega) (k + 1 - 1 - s) (by omega) (by omega) _ rfl, bind_ok,
        TiBuf.at_hist H2.toQHolds (by omega) (k + 1 - 1 - s) (by omega) (by omega) _ rfl, bind_ok, bind_ok,
        if_pos (by omega)]
      exact bind_err (bad _)

theorem abands_contract (o : Nat → R) (p : Nat) (hc : toInt (o 0) = .ok (p : Int)) (hp : 1 ≤ p) :
    Contract abandsStart abandsBatch o (p - 1) :=
  (abands_run o p hc hp).contract (by simp [abandsStart, hc, startM1_ok hc hp])
theorem abands_refuses (o : Nat → R) (p : Int) (hc : toInt (o 0) = .ok p) (hp : p < 1) :
    Refuses abandsBatch o := by intro xs; simp [abandsBatch, hc, hp]
/-- Given fewer than `period - 1` bars the reference implementation fails its own assertion. -/
theorem abands_ref_violates (o : Nat → R) (p : Nat) (hc : toInt (o 0) = .ok (p : Int)) (hp : 1 ≤ p)
    (xs : List (HLC R)) (hN : xs.length < p - 1) : abandsRef o xs = .error .assertFail := by
  unfold abandsRef
  simp only [hc, bind_ok, abandsStart, startM1_ok hc hp, pure_eq]
  rw [if_neg (by omega), forUp_empty (by omega), bind_ok]
  simp [finish, show ¬ ((0 : Int) = xs.length - ((p - 1 : Nat) : Int)) by omega]

theorem msw_contract (o : Nat → R) (p : Nat) (hc : toInt (o 0) = .ok (p : Int)) (hp : 1 ≤ p) :
    Contract mswStart mswBatch o p := (msw_run o p hc hp).contract (by simp [mswStart, hc])
theorem msw_refuses (o : Nat → R) (p : Int) (hc : toInt (o 0) = .ok p) (hp : p < 1) :
    Refuses mswBatch o := by intro xs; simp [mswBatch, hc, hp]

end Any

section Field
variable {R : Type} [Field R] [LinearOrder R] [IsStrictOrderedRing R] [CMath R]

/-! ### Values -/

theorem cell_sum (p n : Nat) (hp : 1 ≤ p) (hn : p ≤ n) (g : Nat → R) :
    ∑ j ∈ range p, g (cellIdx p n j) = ∑ k ∈ Ico (n - p) n, g k := by
  refine sum_nbij' (fun j => cellIdx p n j) (fun k => k % p) ?_ ?_ ?_ ?_ (fun _ _ => rfl)
  · intro j hj
    obtain ⟨h1, h2, _⟩ := cellIdx_ok p n j (mem_range.1 hj) hn
    exact mem_Ico.2 ⟨by omega, h1⟩
  · intro k _
    exact mem_range.2 (Nat.mod_lt _ hp)
  · intro j hj
    exact (cellIdx_ok p n j (mem_range.1 hj) hn).2.2
  · intro k hk
    obtain ⟨h1, h2⟩ := mem_Ico.1 hk
    have h3 := Nat.div_add_mod k p
    have h4 := Nat.mod_lt k hp
    show k % p + p * ((n - 1 - k % p) / p) = k
    generalize k % p = r at *
    generalize k / p = q at *
    have e : n - 1 - r = (n - 1 - k) + p * q := by omega
    rw [e, Nat.add_mul_div_left _ _ hp, Nat.div_eq_of_lt (by omega), Nat.zero_add]
    omega

theorem cciVal_eq [LawfulAbs R] (p : Nat) (hp : 1 ≤ p) (y : Nat → R) (j : Nat) :
    cciVal p y (j + (p - 1)) = if winMeanDev p y j = 0 then 0
      else (y (j + (p - 1)) - winMean p y j) / (15 / 1000 * winMeanDev p y j) := by
  have e0 : TiBuf.bsum y p (j + (p - 1) + 1) * (((1 : Int) : R) / ((p : Int) : R)) = winMean p y j := by
    rw [show j + (p - 1) + 1 = j + p by omega, bsum_win]
    simp [winMean, div_eq_mul_inv]
  have e1 : cciAcc p y (j + (p - 1)) * (((1 : Int) : R) / ((p : Int) : R)) = winMeanDev p y j := by
    simp only [cciAcc, e0, sumTo_eq, LawfulAbs.fabs_eq]
    rw [cell_sum p _ hp (by omega) (fun k => |winMean p y j - y k|), sum_Ico_eq_sum_range, winMeanDev,
      show j + (p - 1) + 1 - (j + (p - 1) + 1 - p) = p by omega]
    simp only [show j + (p - 1) + 1 - p = j by omega, abs_sub_comm (winMean p y j)]
    simp [div_eq_mul_inv]
  simp only [cciVal, cciOut, e0, e1]
  by_cases h : winMeanDev p y j = 0
  · simp [h]
  · rw [if_neg h]
    simp only [Int.cast_ofNat, Int.cast_zero, beq_iff_eq]
    rw [if_neg (mul_ne_zero h (by norm_num)), mul_comm (winMeanDev p y j)]

/-- cci: deviation of the typical price from its mean, in units of 0.015 mean absolute deviations; 0 if the window is
constant. -/
theorem cci_value_partial [LawfulAbs R] (o : Nat → R) (p : Nat) (hc : toInt (o 0) = .ok (p : Int)) (hp : 1 ≤ p)
    (hb : p * 2 ≤ 2147483647) : Computes cciBatch o ((p - 1) * 2) (fun x j =>
      let y := fun k => ((x k).high + (x k).low + (x k).close) / 3
      let s := j + (p - 1)
      if winMeanDev p y s = 0 then 0 else (y (s + (p - 1)) - winMean p y s) / (15 / 1000 * winMeanDev p y s)) :=
  (cci_run o p hc hp hb).congr fun x j => by
    have e : typ3 x = fun k => ((x k).high + (x k).low + (x k).close) / 3 := by
      funext k; simp [typ3, typPrice]; ring
    rw [e, show j + (p - 1) * 2 = j + (p - 1) + (p - 1) by omega, cciVal_eq p hp]

/-- cvi: change in percent of the exponential average of the range over `period` bars. -/
theorem cvi_value_partial (o : Nat → R) (p : Nat) (hc : toInt (o 0) = .ok (p : Int)) (hp : 2 ≤ p)
    (hb : p * 2 ≤ 2147483647) : Computes cviBatch o (p * 2 - 1) (fun x j =>
      let e := ema (emaCoef p) fun k => (x k).high - (x k).low
      let i := j + (p * 2 - 1)
      100 * (e i - e (i - p)) / e (i - p)) :=
  (cvi_run o p hc hp hb).congr fun x j => by
    simp only [emaRec_eq, emaPer_eq, cviOut]
    rw [show rng x = fun k => (x k).high - (x k).low from rfl]
    generalize ema (emaCoef p) (fun k => (x k).high - (x k).low) (j + (p * 2 - 1)) = a
    generalize ema (emaCoef p) (fun k => (x k).high - (x k).low) (j + (p * 2 - 1) - p) = b
    by_cases h : a - b = 0
    · simp [h]
    · simp [h]

theorem emaM_eq (y : Nat → R) (n : Nat) : emaM y n = ema (emaCoef 9) y n := by
  induction n with
  | zero => simp only [emaM, ema]; push_cast; ring
  | succ n ih => rw [emaM, ih, ema, emaCoef]; push_cast; ring

/-- mass: sum over the period of the ratio of the 9-bar exponential average of the range to its own 9-bar average. -/
theorem mass_value_partial (o : Nat → R) (p : Nat) (hc : toInt (o 0) = .ok (p : Int)) (hp : 1 ≤ p)
    (hb : 15 + p ≤ 2147483647) : Computes massBatch o (15 + p) (fun x =>
      let e := ema (emaCoef 9) fun k => (x k).high - (x k).low
      let e2 := ema (emaCoef 9) (shift 8 e)
      winSum p fun k => e (k + 16) / e2 (k + 8)) :=
  (mass_run o p hc hp hb).congr fun x j => by
    rw [bsum_win]
    congr 1
    funext k
    have e1 : massE x = ema (emaCoef 9) fun k => (x k).high - (x k).low := funext (emaM_eq _)
    simp only [massRatio, massE2, emaM_eq, e1]
    by_cases h : ema (emaCoef 9) (fun k => (x k).high - (x k).low) (k + 16) = 0
    · simp [h]
    · simp only [Int.cast_zero, beq_iff_eq, if_neg h]; rfl

theorem cMin_eq (a b : R) : cMin a b = min a b := by
  unfold cMin; split
  · rename_i h; rw [min_eq_left h.le]
  · rename_i h; rw [min_eq_right (not_lt.1 h)]
theorem cMax_eq (a b : R) : cMax a b = max a b := by
  unfold cMax; split
  · rename_i h; rw [max_eq_left h.le]
  · rename_i h; rw [max_eq_right (not_lt.1 h)]

/-- ultosc (medium < long): 4 : 2 : 1 weighted mean, in percent, of the pressure ratios of the three windows. -/
theorem ultosc_value_partial (o : Nat → R) (s m l : Nat) (hs : toInt (o 0) = .ok (s : Int))
    (hm : toInt (o 1) = .ok (m : Int)) (hl : toInt (o 2) = .ok (l : Int)) (h1 : 1 ≤ s) (h2 : s ≤ m) (h3 : m < l) :
    Computes ultoscBatch o l (fun x j =>
      100 * (4 * pressureRatio s x (j + l) + 2 * pressureRatio m x (j + l) + pressureRatio l x (j + l)) / 7) :=
  (ultosc_run o s m l hs hm hl h1 h2 h3).congr fun x j => by
    have e1 : bpSig x = buyingPressure x := funext fun k => by
      simp only [bpSig, ultoscBp, buyingPressure, cMin_eq]
    have e2 : rSig x = trueSpan x := funext fun k => by simp only [rSig, ultoscR, trueSpan, cMin_eq, cMax_eq]
    have e3 : ∀ (y : Nat → R) (q : Nat), q ≤ l → slide y q (j + l) = winSum q y (j + l - q) := fun y q hq => by
      conv_lhs => rw [show j + l = j + l - q + q by omega]
      exact slide_eq y q _
    have e4 : ∀ (y : Nat → R), TiBuf.bsum y l (j + l) = winSum l y (j + l - l) := fun y => by
      rw [bsum_win, Nat.add_sub_cancel]
    simp only [ultoscVal, e1, e2, e3 _ s (by omega), e3 _ m (by omega), e4, ultoscOut, pressureRatio]
    have e5 : ∀ (a b : R) (c : Int), (if a == ((0 : Int) : R) then ((0 : Int) : R) else (c : R) * a / b) = c * (a / b) := by
      intro a b c
      by_cases h : a = 0
      · simp [h]
      · simp [h]; ring
    rw [e5, e5, e5]
    push_cast
    ring

/-- ultosc lies in [0, 100] when low ≤ close ≤ high. -/
theorem ultosc_range_partial (o : Nat → R) (s m l : Nat) (hs : toInt (o 0) = .ok (s : Int))
    (hm : toInt (o 1) = .ok (m : Int)) (hl : toInt (o 2) = .ok (l : Int)) (h1 : 1 ≤ s) (h2 : s ≤ m) (h3 : m < l)
    (x : Nat → HLC R) (hx : ∀ k, (x k).low ≤ (x k).close ∧ (x k).close ≤ (x k).high) (N : Nat) :
    ∃ y, ultoscBatch o (pre x N) = .ok (.okay, pre y (N - l)) ∧ ∀ j, 0 ≤ y j ∧ y j ≤ 100 := by
  refine ⟨_, ultosc_value_partial o s m l hs hm hl h1 h2 h3 x N, fun j => ?_⟩
  have hb : ∀ k, 0 ≤ buyingPressure x k ∧ buyingPressure x k ≤ trueSpan x k := fun k => by
    unfold buyingPressure trueSpan
    constructor
    · have := min_le_left (x (k + 1)).low (x k).close
      linarith [(hx (k + 1)).1]
    · have := le_max_left (x (k + 1)).high (x k).close
      linarith [(hx (k + 1)).2]
  have key : ∀ q i, 0 ≤ pressureRatio q x i ∧ pressureRatio q x i ≤ 1 := fun q i => by
    have a0 : 0 ≤ winSum q (buyingPressure x) (i - q) := sum_nonneg fun k _ => (hb _).1
    have a1 : winSum q (buyingPressure x) (i - q) ≤ winSum q (trueSpan x) (i - q) := sum_le_sum fun k _ => (hb _).2
    refine ⟨div_nonneg a0 (a0.trans a1), div_le_one_of_le₀ a1 (a0.trans a1)⟩
  have k1 := key s (j + l)
  have k2 := key m (j + l)
  have k3 := key l (j + l)
  constructor
  · have : 0 ≤ 4 * pressureRatio s x (j + l) + 2 * pressureRatio m x (j + l) + pressureRatio l x (j + l) := by
      linarith [k1.1, k2.1, k3.1]
    simp only
    linarith
  · simp only
    linarith [k1.2, k2.2, k3.2]

theorem slideD_eq (x : Nat → R) (p i : Nat) : slideD x p i = slide x p i := by
  induction i with
  | zero => rfl
  | succ i ih => simp only [slideD, slide, ih]; split <;> ring

/-- abands: means over the period of Headley's widened lows, of the closes, and of his widened highs. -/
theorem abands_value (o : Nat → R) (p : Nat) (hc : toInt (o 0) = .ok (p : Int)) (hp : 1 ≤ p) :
    Computes abandsBatch o (p - 1) (fun x j => ⟨winMean p (fun k => widenedLow (x k)) j,
      winMean p (fun k => (x k).close) j, winMean p (fun k => widenedHigh (x k)) j⟩) :=
  (abands_run o p hc hp).congr fun x j => by
    have e0 : ∀ r : HLC R, abandsMult r = widenFactor r := fun r => by simp [abandsMult, widenFactor]
    have e1 : (fun k => abandsLow (x k)) = fun k => widenedLow (x k) := funext fun k => by
      simp only [abandsLow, widenedLow, e0]; push_cast; ring
    have e2 : (fun k => abandsHigh (x k)) = fun k => widenedHigh (x k) := funext fun k => by
      simp only [abandsHigh, widenedHigh, e0]; push_cast; ring
    simp only [abandsVal, e1, e2, bsum_win, slideD_eq, slide_eq, winMean]
    simp [div_eq_mul_inv]

/-- The lower band does not exceed the upper band if 0 < low ≤ high. -/
theorem abands_order (o : Nat → R) (p : Nat) (hc : toInt (o 0) = .ok (p : Int)) (hp : 1 ≤ p) (x : Nat → HLC R)
    (hx : ∀ k, 0 < (x k).low ∧ (x k).low ≤ (x k).close ∧ (x k).close ≤ (x k).high) (N : Nat) :
    ∃ y, abandsBatch o (pre x N) = .ok (.okay, pre y (N - (p - 1))) ∧
      ∀ j, (y j).lower ≤ (y j).middle ∧ (y j).middle ≤ (y j).upper := by
  refine ⟨_, abands_value o p hc hp x N, fun j => ?_⟩
  have hw : ∀ k, 0 ≤ widenFactor (x k) := fun k => by
    unfold widenFactor
    obtain ⟨h1, h2, h3⟩ := hx k
    rw [if_pos (by linarith)]
    exact div_nonneg (by linarith) (by linarith)
  have hpos : (0 : R) ≤ p := Nat.cast_nonneg _
  constructor
  · refine div_le_div_of_nonneg_right (sum_le_sum fun k _ => ?_) hpos
    have := mul_nonneg (hx (j + k)).1.le (hw (j + k))
    unfold widenedLow
    linarith [(hx (j + k)).2.1]
  · refine div_le_div_of_nonneg_right (sum_le_sum fun k _ => ?_) hpos
    have := mul_nonneg (show 0 ≤ (x (j + k)).high by linarith [hx (j + k)]) (hw (j + k))
    unfold widenedHigh
    linarith [(hx (j + k)).2.2]

/-- The reference implementation agrees with abands on bars with 0 < high + low (given at least `period - 1` bars). -/
theorem abands_ref_eq_batch_partial (o : Nat → R) (p : Nat) (hc : toInt (o 0) = .ok (p : Int)) (hp : 1 ≤ p)
    (x : Nat → HLC R) (hx : ∀ k, 0 < (x k).high + (x k).low) (N : Nat) (hN : p - 1 ≤ N) :
    abandsRef o (pre x N) = abandsBatch o (pre x N) := by
  rw [abandsRef_run o p hc hp x N hN, abands_value o p hc hp x N]
  congr 3
  funext j
  have e : ∀ k, abandsRefMult (x k) = widenFactor (x k) := fun k => by
    have := (hx k).ne'
    unfold abandsRefMult widenFactor
    rw [if_pos (hx k)]
    push_cast
    field_simp
    ring
  simp only [abandsRefVal, sumTo_eq, e, winMean, winSum, sum_div, widenedLow, widenedHigh]
  simp

/-- Where high + low is negative the reference implementation differs from abands. -/
theorem abands_ref_ne_batch : ∃ (o : Nat → ℚ) (xs : List (HLC ℚ)), toInt (o 0) = .ok 1 ∧ 1 ≤ xs.length ∧
    abandsRef o xs ≠ abandsBatch o xs := ⟨opts [1], [⟨-1, -2, -1⟩], by decide +kernel⟩

theorem sin_le_one [LawfulTrig R] (a : R) : -1 ≤ CMath.sin a ∧ CMath.sin a ≤ 1 := by
  have h := LawfulTrig.sin_sq_add_cos_sq a
  have h2 := mul_self_nonneg (CMath.cos a)
  have h3 : CMath.sin a * CMath.sin a ≤ 1 := by linarith
  exact ⟨by nlinarith, by nlinarith⟩

/-- The phase the code computes is the specified angle. -/
theorem mswPhase_eq [LawfulAbs R] (re im : R) : mswPhase re im = Spec.mswAngle (31415926 / 10000000) re im := by
  unfold mswPhase mswTpi mswPi Spec.mswAngle
  simp only [LawfulAbs.fabs_eq]
  push_cast
  have e1 : (2 * (31415926 / 10000000) / 2 * (if im < 0 then -1 else 1) : R) = if im < 0 then -(31415926 / 10000000) else 31415926 / 10000000 := by
    split_ifs <;> ring
  rw [e1]
  generalize (if 1 / 1000 < |re| then CMath.atan (im / re) else if im < 0 then -(31415926 / 10000000) else 31415926 / 10000000 : R) = b
  have e2 : (if re < 0 then b + 31415926 / 10000000 else b) = b + if re < 0 then 31415926 / 10000000 else (0 : R) := by
    split_ifs <;> ring
  rw [e2]
  generalize b + (if re < 0 then 31415926 / 10000000 else (0 : R)) + 31415926 / 10000000 / 2 = a
  split_ifs <;> first | rfl | (exfalso; linarith) | linarith

/-- msw: the phase of the period's dominant cycle (from the real and imaginary part of the Fourier component of the last
`period` values) and the same led by 45 degrees, both through `sin`. -/
theorem msw_value [LawfulAbs R] (o : Nat → R) (p : Nat) (hc : toInt (o 0) = .ok (p : Int)) (hp : 1 ≤ p) :
    Computes mswBatch o p (fun x j =>
      let pi : R := 31415926 / 10000000
      let re := ∑ k ∈ range p, CMath.cos (2 * pi * k / p) * x (j + p - k)
      let im := ∑ k ∈ range p, CMath.sin (2 * pi * k / p) * x (j + p - k)
      ⟨CMath.sin (mswAngle pi re im), CMath.sin (mswAngle pi re im + pi / 4)⟩) :=
  (msw_run o p hc hp).congr fun x j => by
    simp only [mswOut, mswPhase_eq, mswRe, mswIm, sumTo_eq, mswTpi, mswPi]
    simp

/-- The outputs of msw lie in [-1, 1]. -/
theorem msw_range [LawfulTrig R] [LawfulAbs R] (o : Nat → R) (p : Nat) (hc : toInt (o 0) = .ok (p : Int)) (hp : 1 ≤ p) (x : Nat → R)
    (N : Nat) : ∃ y, mswBatch o (pre x N) = .ok (.okay, pre y (N - p)) ∧
      ∀ j, (-1 ≤ (y j).sine ∧ (y j).sine ≤ 1) ∧ (-1 ≤ (y j).lead ∧ (y j).lead ≤ 1) :=
  ⟨_, msw_value o p hc hp x N, fun _ => ⟨sin_le_one _, sin_le_one _⟩⟩

end Field

/- Concrete runs and instances of the hypotheses. -/
example : toInt (opts [3] 0) = .ok ((3 : Nat) : Int) ∧ 3 * 2 ≤ 2147483647 ∧ 15 + 3 ≤ 2147483647 := by decide +kernel
example : toInt (opts [1073741825] 0) = .ok ((1073741825 : Nat) : Int) ∧ 2147483647 < (1073741825 - 1) * 2 := by
  decide +kernel
example : cciBatch (opts [2]) [⟨1, 1, 1⟩, ⟨3, 3, 3⟩, ⟨7, 7, 7⟩, ⟨7, 7, 7⟩] = .ok (.okay, [200/3, 0]) := by decide +kernel
example : cviBatch (opts [2]) [⟨2, 1⟩, ⟨5, 1⟩, ⟨9, 3⟩, ⟨5, 2⟩] = .ok (.okay, [200/9]) := by decide +kernel
example : massBatch (opts [2]) (List.replicate 19 ⟨3, 1⟩) = .ok (.okay, [2, 2]) := by decide +kernel
example : ultoscBatch (opts [1, 2, 3]) [⟨3, 1, 2⟩, ⟨4, 2, 3⟩, ⟨5, 1, 2⟩, ⟨6, 2, 5⟩] =
    .ok (.okay, [100 * (4 * (3 / 4) + 2 * (4 / 8) + 5 / 10) / 7]) := by decide +kernel
example : abandsBatch (opts [2]) [⟨3, 1, 2⟩, ⟨4, 4, 4⟩, ⟨6, 2, 3⟩] =
    .ok (.okay, [⟨3/2, 3, 13/2⟩, ⟨1, 7/2, 11⟩]) := by decide +kernel
example : abandsRef (opts [2]) [⟨3, 1, 2⟩, ⟨4, 4, 4⟩, ⟨6, 2, 3⟩] =
    .ok (.okay, [⟨3/2, 3, 13/2⟩, ⟨1, 7/2, 11⟩]) := by decide +kernel
example : ultoscBatch (opts [1, 2, 2]) (List.replicate 5 ⟨3, 1, 2⟩) = .error .oobRead := by decide +kernel
example : cviBatch (opts [1]) [⟨2, 1⟩, ⟨5, 1⟩] = .error .uninit := by decide +kernel

end Verif
