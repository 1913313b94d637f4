/-
C31 and C03, C32-C36 for pc, ce, ichi and smi.
-/
import Verif.Proof.Chan
import Verif.Props.Flow
import Verif.Props.Extremum
import Verif.Props.Window
import Verif.Spec.Chan
import Verif.Core.RealInst

set_option linter.unusedSectionVars false
set_option linter.unusedSimpArgs false
set_option linter.unusedVariables false

namespace Verif
open Spec Finset

section Any
variable {R : Type} [Num R]

theorem pc_refuses (o : Nat → R) (p : Int) (hc : toInt (o 0) = .ok p) (h : p < 1) (hlt : o 0 < c! 1) :
    Refuses pcBatch o ∧ Refuses pcRef o ∧ (pc (R := R)).NewRefuses o :=
  ⟨fun xs => by simp only [pcBatch, hc, bind_ok, if_pos h]; rfl, fun xs => by simp only [pcRef, if_pos hlt]; rfl, by
    simp only [Indicator.NewRefuses, pc, pcNew, if_pos hlt]; rfl⟩

/-- With period 1 the batch call reads an index it has not assigned, whatever the arithmetic. -/
theorem pc_violates (o : Nat → R) (hc : toInt (o 0) = .ok 1) (st : Int) (hs : pcStart o = .ok st) (a : HL R) (xs : List (HL R)) :
    pcBatch o (a :: xs) = .error .uninit := by
  unfold pcBatch
  rw [hc, bind_ok, if_neg (by omega), hs, bind_ok]
  have : Inhabited R := ⟨c! 0⟩
  obtain ⟨x, hx⟩ := exists_pre (a :: xs)
  rw [hx]
  refine loopBatch_err _ (Phases.Ordered.from (by phases_ordered pcLoops) _) x (fun _ => HiLo.unset) (fun _ => []) .uninit 0 rfl (fun n hn => by omega) ?_ _ (by simp)
  simp only [barStep, pcLoops, List.find?]
  rw [decide_eq_false (by simp)]
  rfl

theorem pc_chunks (o : Nat → R) : (pc (R := R)).ChunkInvariant o := chunkInvariant_of (fun k => by
  show Phases.Ordered (pcPhases k)
  phases_ordered pcPhases) o

theorem ce_refuses (o : Nat → R) (p : Int) (hc : toInt (o 0) = .ok p) (h : p < 1) :
    Refuses ceBatch o ∧ (ce (R := R)).NewRefuses o :=
  ⟨fun xs => by simp only [ceBatch, hc, bind_ok, if_pos h]; rfl, by
    simp only [Indicator.NewRefuses, ce, ceNew, hc, bind_ok, if_pos h]; rfl⟩

theorem ce_chunks (o : Nat → R) : (ce (R := R)).ChunkInvariant o := chunkInvariant_of (fun k => by
  show Phases.Ordered (cePhases k)
  phases_ordered cePhases) o

theorem ichi_refuses (o : Nat → R) (p9 p26 p52 : Int) (h0 : toInt (o 0) = .ok p9) (h1 : toInt (o 1) = .ok p26)
    (h2 : toInt (o 2) = .ok p52) (h : p9 < 1 ∨ p26 < p9 ∨ p52 < p26) :
    Refuses ichiBatch o ∧ Refuses ichiRef o ∧ (ichi (R := R)).NewRefuses o := by
  have hb : ichiBad p9 p26 p52 = true := by
    unfold ichiBad
    rcases h with h | h | h
    · rw [decide_eq_false (show ¬ 0 < p9 by omega)]; rfl
    · rw [decide_eq_false (show ¬ p9 ≤ p26 by omega)]; simp
    · rw [decide_eq_false (show ¬ p26 ≤ p52 by omega)]; simp
  exact ⟨fun xs => by simp only [ichiBatch, h0, h1, h2, bind_ok, hb, if_true]; rfl,
    fun xs => by simp only [ichiRef, h0, h1, h2, bind_ok, hb, if_true]; rfl, by
    simp only [Indicator.NewRefuses, ichi, ichiNew, h0, h1, h2, bind_ok, hb, if_true]; rfl⟩

theorem ichi_chunks (o : Nat → R) : (ichi (R := R)).ChunkInvariant o := chunkInvariant_of (fun k => by
  show Phases.Ordered (ichiPhases k)
  phases_ordered ichiPhases) o

/-- Accepted periods whose warm-up does not fit an int overflow. -/
theorem ichi_overflow (o : Nat → R) (p9 p26 p52 : Int) (h0 : toInt (o 0) = .ok p9) (h1 : toInt (o 1) = .ok p26)
    (h2 : toInt (o 2) = .ok p52) (h9 : 1 ≤ p9) (h26 : p9 ≤ p26) (h52 : p26 ≤ p52) (hb : 2147483647 < p52 - 1 + p26) (xs : List (HL R)) :
    ichiBatch o xs = .error .intRange ∧ ichiStart o = .error .intRange ∧ (ichi (R := R)).new o = .error .intRange := by
  have r0 := toInt_range h0
  have r1 := toInt_range h1
  have r2 := toInt_range h2
  have hbad : ichiBad p9 p26 p52 = false := by
    unfold ichiBad
    rw [decide_eq_true (by omega), decide_eq_true (by omega), decide_eq_true (by omega)]; rfl
  have e : i32 (p52 - 1 + p26) = .error .intRange := by unfold i32; rw [if_neg (by omega)]
  have hs : ichiStart o = .error .intRange := by
    unfold ichiStart
    rw [h0, bind_ok, h1, bind_ok, h2, bind_ok, i32_ok (p9 - 1) (by omega) (by omega), bind_ok, i32_ok (p26 - 1) (by omega) (by omega), bind_ok,
      i32_ok (p52 - 1) (by omega) (by omega), bind_ok, e]
    rfl
  refine ⟨?_, hs, ?_⟩
  · unfold ichiBatch
    rw [h0, bind_ok, h1, bind_ok, h2, bind_ok, hbad, if_neg (by simp)]
    by_cases hm : p26 + 1 ≤ 2147483647
    · rw [i32_ok (p26 + 1) (by omega) hm, bind_ok]
      obtain ⟨m, hm'⟩ := Int.eq_ofNat_of_zero_le (show 0 ≤ p26 + 1 by omega)
      rw [hm', Ring.make_after (fun _ => c! 0) m (by omega), bind_ok, i32_ok (p52 - 1) (by omega) (by omega), bind_ok, e]
      rfl
    · have : i32 (p26 + 1) = .error .intRange := by unfold i32; rw [if_neg (by omega)]
      rw [this]; rfl
  · simp only [ichi, ichiNew, h0, h1, h2, bind_ok, hbad, hs]
    rfl

/-- With fewer bars than the longest window the reference forms pointers past its arrays. -/
theorem ichi_ref_violates (o : Nat → R) (p9 p26 p52 : Nat) (h0 : toInt (o 0) = .ok (p9 : Int)) (h1 : toInt (o 1) = .ok (p26 : Int))
    (h2 : toInt (o 2) = .ok (p52 : Int)) (h9 : 1 ≤ p9) (h26 : p9 ≤ p26) (h52 : p26 ≤ p52) (xs : List (HL R))
    (hN : xs.length < p9 - 1) : ichiRef o xs = .error .badPtr := by
  unfold ichiRef
  have hbad : ichiBad (p9 : Int) p26 p52 = false := by
    unfold ichiBad
    rw [decide_eq_true (by omega), decide_eq_true (by omega), decide_eq_true (by omega)]; rfl
  rw [h0, bind_ok, h1, bind_ok, h2, bind_ok, hbad, if_neg (by simp)]
  refine bind_err ?_
  unfold addrOf
  rw [if_neg (by omega)]

theorem smi_refuses (o : Nat → R) (h : o 0 < c! 1 ∨ o 1 < c! 1 ∨ o 2 < c! 1) :
    Refuses smiBatch o ∧ Refuses smiRef o ∧ (smi (R := R)).NewRefuses o := by
  have hb : smiBad o = true := by
    unfold smiBad
    rcases h with h | h | h <;> rw [decide_eq_true h] <;> simp
  exact ⟨fun xs => by simp only [smiBatch, hb, if_true]; rfl, fun xs => by simp only [smiRef, hb, if_true]; rfl, by
    simp only [Indicator.NewRefuses, smi, smiNew, hb, if_true]; rfl⟩

end Any

section Exact
variable {R : Type} [Field R] [LinearOrder R] [IsStrictOrderedRing R] [CMath R]

theorem chan_le_max (p : Nat) (hp : 1 ≤ p) (x : Nat → R) (j i : Nat) (h1 : j ≤ i) (h2 : i < j + p) : x i ≤ winMax p x j := by
  unfold winMax
  have := Finset.le_sup' (s := range (p - 1 + 1)) (fun k => x (j + k)) (b := i - j) (by simp; omega)
  simpa [show j + (i - j) = i by omega] using this
theorem chan_min_le (p : Nat) (hp : 1 ≤ p) (x : Nat → R) (j i : Nat) (h1 : j ≤ i) (h2 : i < j + p) : winMin p x j ≤ x i := by
  unfold winMin
  have := Finset.inf'_le (s := range (p - 1 + 1)) (fun k => x (j + k)) (b := i - j) (by simp; omega)
  simpa [show j + (i - j) = i by omega] using this

/-! pc -/

section
variable [LawfulTrunc R] [LawfulRound R]

theorem pcStart_ok {o : Nat → R} {p : Nat} (hc : toInt (o 0) = .ok (p : Int)) (hp : 1 ≤ p) : pcStart o = .ok ((p - 1 : Nat) : Int) :=
  toInt_sub_one hc hp

/-- pc: the highest high and the lowest low of each window. Periods of at least 2; period 1 is `pc_violates`. -/
theorem pc_value_partial (o : Nat → R) (p : Nat) (hc : toInt (o 0) = .ok (p : Int)) (hp : 2 ≤ p) :
    Computes pcBatch o (p - 1) fun x j => ⟨winMax p (fun k => (x k).high) j, winMin p (fun k => (x k).low) j⟩ :=
  (pc_run o p hc (pcStart_ok hc (by omega)) hp).congr fun x j => by
    rw [pcVal, recMax_full _ _ _ (by omega), recMin_full _ _ _ (by omega), show p - 1 + j + 1 - p = j by omega]

theorem pc_contract_partial (o : Nat → R) (p : Nat) (hc : toInt (o 0) = .ok (p : Int)) (hp : 2 ≤ p) : Contract pcStart pcBatch o (p - 1) :=
  (pc_value_partial o p hc hp).contract (pcStart_ok hc (by omega))

/-- The stream does so for every period. -/
theorem pc_stream_value (o : Nat → R) (p : Nat) (hc : toInt (o 0) = .ok (p : Int)) (hp : 1 ≤ p) :
    (pc (R := R)).StreamComputes o (p - 1) fun x j => ⟨winMax p (fun k => (x k).high) j, winMin p (fun k => (x k).low) j⟩ :=
  StreamComputes.congr (pc_stream_run o p (not_lt_one hc hp) hc (pcStart_ok hc hp) hp) fun x j => by
    rw [pcVal, recMax_full _ _ _ (by omega), recMin_full _ _ _ (by omega), show p - 1 + j + 1 - p = j by omega]

theorem pc_stream_eq_batch_partial (o : Nat → R) (p : Nat) (hc : toInt (o 0) = .ok (p : Int)) (hp : 2 ≤ p) :
    (pc (R := R)).StreamEqBatch o (p - 1) := streamEqBatch_of (pc_value_partial o p hc hp) (pc_stream_value o p hc (by omega))

theorem zipWith_pre {α β γ : Type} (f : α → β → γ) (x : Nat → α) (y : Nat → β) (n : Nat) :
    List.zipWith f (pre x n) (pre y n) = pre (fun i => f (x i) (y i)) n := by
  apply List.ext_getElem
  · simp
  · intro i h1 h2; simp [pre]

theorem pc_ref_eq_batch_partial (o : Nat → R) (p : Nat) (hc : toInt (o 0) = .ok (p : Int)) (hp : 2 ≤ p) (xs : List (HL R)) :
    pcRef o xs = pcBatch o xs := by
  obtain ⟨x, hx⟩ := exists_pre xs
  rw [hx, pc_value_partial o p hc hp x]
  unfold pcRef
  rw [if_neg (not_lt_one hc (by omega)), pcStart_ok hc (by omega), bind_ok, length_pre]
  by_cases hs : (xs.length : Int) ≤ ((p - 1 : Nat) : Int)
  · rw [if_pos hs, show xs.length - (p - 1) = 0 by omega]
    rfl
  rw [if_neg hs, map_pre, map_pre, min_value o p hc (by omega), bind_ok, max_value o p hc (by omega), bind_ok, zipWith_pre]
  rfl

/-- Every bar of the window lies in the channel, and the channel does not cross. -/
theorem pc_contains_partial (o : Nat → R) (p : Nat) (hc : toInt (o 0) = .ok (p : Int)) (hp : 2 ≤ p) (x : Nat → HL R) (N : Nat) :
    ∃ v : Nat → HL R, pcBatch o (pre x N) = .ok (.okay, pre v (N - (p - 1))) ∧
      ∀ j i, j ≤ i → i < j + p → (v j).low ≤ (x i).low ∧ (x i).high ≤ (v j).high :=
  ⟨_, pc_value_partial o p hc hp x N, fun j i h1 h2 => ⟨chan_min_le p (by omega) (fun k => (x k).low) j i h1 h2,
    chan_le_max p (by omega) (fun k => (x k).high) j i h1 h2⟩⟩

/-! ce -/

theorem ceTr_eq (x : Nat → HLC R) (hx : ∀ n, (x n).low ≤ (x n).high) : ceTr x = fun k => Spec.trueRange x k := by
  funext k
  cases k with
  | zero => rfl
  | succ k =>
    have h := hx (k + 1)
    simp only [ceTr, ceRange, stdMax_eq, stdMin_eq, Spec.trueRange, Nat.add_eq_zero_iff, one_ne_zero, and_false, if_false, Nat.add_sub_cancel]
    rcases le_total (x (k + 1)).high (x k).close with a | a <;> rcases le_total (x (k + 1)).low (x k).close with b | b
    · rw [max_eq_right a, min_eq_left b, abs_of_nonpos (by linarith), abs_of_nonpos (by linarith),
        max_eq_right (a := -((x (k + 1)).high - (x k).close)) (by linarith),
        max_eq_right (by linarith)]
      ring
    · have : (x k).close = (x (k + 1)).high := by linarith
      have h2 : (x (k + 1)).low = (x (k + 1)).high := by linarith
      simp [this, h2]
    · rw [max_eq_left a, min_eq_left b, abs_of_nonneg (by linarith), abs_of_nonpos (by linarith), max_eq_left]
      exact max_le (by linarith) (by linarith)
    · rw [max_eq_left a, min_eq_right b, abs_of_nonneg (by linarith), abs_of_nonneg (by linarith), max_eq_left (a := (x (k+1)).high - (x k).close) (by linarith),
        max_eq_right (by linarith)]

theorem ceAtr_first (p : Nat) (x : Nat → HLC R) (n : Nat) (hn : n < p) : ceAtr p x n = (∑ k ∈ range (n + 1), ceTr x k) / (p : R) := by
  induction n with
  | zero => simp [ceAtr, div_eq_mul_inv]
  | succ n ih => rw [ceAtr, if_pos hn, ih (by omega), sum_range_succ _ (n + 1)]; simp; ring

theorem ceAtr_eq (p : Nat) (hp : 1 ≤ p) (x : Nat → HLC R) (j : Nat) : ceAtr p x (p - 1 + j) = wilder p (ceTr x) j := by
  unfold wilder
  induction j with
  | zero => rw [Nat.add_zero, ceAtr_first p x _ (by omega)]; simp [Spec.ema, winMean, winSum, show p - 1 + 1 = p by omega]
  | succ j ih =>
    rw [← Nat.add_assoc, ceAtr, if_neg (by omega), ih, Spec.ema]
    simp [show p - 1 + j + 1 = j + p by omega]
    ring

/-- ce: the highest high less, and the lowest low plus, a multiple of the average true range. Periods of at least 2; for period
1 see `ce_violates`. -/
theorem ce_value_partial (o : Nat → R) (p : Nat) (hc : toInt (o 0) = .ok (p : Int)) (hp : 2 ≤ p) (x : Nat → HLC R)
    (hx : ∀ n, (x n).low ≤ (x n).high) (N : Nat) :
    ceBatch o (pre x N) = .ok (.okay, pre (fun j => (⟨winMax p (fun k => (x k).high) j - o 1 * wilder p (Spec.trueRange x) j,
      winMin p (fun k => (x k).low) j + o 1 * wilder p (Spec.trueRange x) j⟩ : HL R)) (N - (p - 1))) := by
  have h := ce_run o p hc (by omega) x N
  rw [max_eq_right (by omega)] at h
  rw [h]
  congr 3
  funext j
  dsimp only
  rw [ceVal, ceAtr_eq p (by omega), ceTr_eq x hx, recMax_full _ _ _ (by omega), recMin_full _ _ _ (by omega), show p - 1 + j + 1 - p = j by omega]

theorem ce_contract_partial (o : Nat → R) (p : Nat) (hc : toInt (o 0) = .ok (p : Int)) (hp : 2 ≤ p) : Contract ceStart ceBatch o (p - 1) := by
  have h := ce_run o p hc (by omega)
  rw [max_eq_right (by omega)] at h
  exact h.contract (ceStart_ok hc (by omega))

theorem ce_stream_eq_batch_partial (o : Nat → R) (p : Nat) (hc : toInt (o 0) = .ok (p : Int)) (hp : 2 ≤ p) :
    (ce (R := R)).StreamEqBatch o (p - 1) := by
  have h := ce_run o p hc (by omega)
  rw [max_eq_right (by omega)] at h
  exact streamEqBatch_of h (ce_stream_run o p hc hp)

/-- With period 1 one value fewer than announced is written. -/
theorem ce_violates (o : Nat → R) (hc : toInt (o 0) = .ok 1) (x : Nat → HLC R) (N : Nat) :
    ceStart o = .ok 0 ∧ ∃ v, ceBatch o (pre x N) = .ok (.okay, pre v (N - 1)) :=
  ⟨ceStart_ok (p := 1) hc le_rfl, _, ce_run o 1 hc le_rfl x N⟩

theorem ceRef_run [LawfulAbs R] [LawfulCeil R] (o : Nat → R) (p : Nat) (hc : toInt (o 0) = .ok (p : Int)) (hp : 1 ≤ p) (x : Nat → HLC R) (N : Nat)
    (hN : N ≤ 2147483647) :
    ceRef o (pre x N) = .ok (.okay, pre (fun j => (⟨winMax p (fun k => (x k).high) j - o 1 * wilder p (Spec.trueRange x) j,
      winMin p (fun k => (x k).low) j + o 1 * wilder p (Spec.trueRange x) j⟩ : HL R)) (N - (p - 1))) := by
  have hr := toInt_range hc
  unfold ceRef
  rw [ceStart_ok hc hp, bind_ok, length_pre]
  by_cases hs : (N : Int) ≤ ((p - 1 : Nat) : Int)
  · rw [if_pos hs, show N - (p - 1) = 0 by omega]
    rfl
  have hw := toInt_within hc hp
  have hceil : toInt (CMath.ceil (((N : Int) : R) - o 0 + c! 1)) = .ok ((N - (p - 1) : Nat) : Int) := by
    obtain ⟨n, e, h1, h2⟩ := LawfulCeil.ceil_spec (((N : Int) : R) - o 0 + c! 1)
    rw [e]
    have : n = ((N - (p - 1) : Nat) : Int) := by
      have a : ((n - 1 : Int) : R) < (((N - (p - 1) : Nat) : Int) : R) := by
        rw [Nat.cast_sub (by omega), Nat.cast_sub hp]; push_cast; push_cast at h1; linarith [hw.1]
      have b : (((N - (p - 1) : Nat) : Int) : R) - 1 < (n : R) := by
        rw [Nat.cast_sub (by omega), Nat.cast_sub hp]; push_cast; push_cast at h2; linarith [hw.2]
      have a' := Int.cast_lt.1 a
      have b' : ((((N - (p - 1) : Nat) : Int) - 1 : Int) : R) < (n : R) := by push_cast; push_cast at b; exact b
      have := Int.cast_lt.1 b'
      omega
    rw [this]
    exact toInt_cast _ (by omega)
  rw [if_neg hs, if_neg (not_lt_one hc hp), atr_value (fun _ => o 0) p hc hp, bind_ok, map_pre, map_pre, max_value (fun _ => o 0) p hc hp, bind_ok,
    min_value (fun _ => o 0) p hc hp, bind_ok, hceil, bind_ok]
  refine forUp_bind 0 (N - (p - 1)) (fun t => pre _ t) rfl rfl rfl (by omega) (fun i _ hi => ?_) rfl
  rw [rd_pre_nat _ _ _ hi, bind_ok, rd_pre_nat _ _ _ hi, bind_ok, rd_pre_nat _ _ _ hi, bind_ok, bind_ok]
  exact wr_pre _ _ i _ (by omega) rfl

theorem ce_ref_eq_batch_partial [LawfulAbs R] [LawfulCeil R] (o : Nat → R) (p : Nat) (hc : toInt (o 0) = .ok (p : Int)) (hp : 2 ≤ p) (x : Nat → HLC R)
    (hx : ∀ n, (x n).low ≤ (x n).high) (N : Nat) (hN : N ≤ 2147483647) : ceRef o (pre x N) = ceBatch o (pre x N) := by
  rw [ceRef_run o p hc (by omega) x N hN, ce_value_partial o p hc hp x hx N]

/-- With period 1 the reference writes a value for the first bar and the batch call does not. -/
theorem ce_ref_ne_batch [LawfulAbs R] [LawfulCeil R] (o : Nat → R) (hc : toInt (o 0) = .ok 1) (x : Nat → HLC R) (N : Nat) (h1 : 1 ≤ N)
    (hN : N ≤ 2147483647) : ceRef o (pre x N) ≠ ceBatch o (pre x N) := by
  rw [ceRef_run o 1 hc le_rfl x N hN, ce_run o 1 hc le_rfl x N]
  intro h
  injection h with h
  have := congrArg (fun r => r.2.length) h
  simp at this
  omega

end

/-! ichi -/

theorem ichiMid_eq (p : Nat) (x : Nat → HL R) (n : Nat) (h : p ≤ n + 1) : ichiMid p x n = midChannel p x n := by
  rw [ichiMid, recMax_full _ _ _ h, recMin_full _ _ _ h, midChannel]
  simp

/-- ichi at bar `i = p52 - 1 + p26 + j`: the conversion and base lines of that bar, and the two spans of the bar `p26` earlier.
Periods whose warm-up fits an int; for the others see `ichi_overflow`. -/
theorem ichi_value_partial (o : Nat → R) (p9 p26 p52 : Nat) (h0 : toInt (o 0) = .ok (p9 : Int)) (h1 : toInt (o 1) = .ok (p26 : Int))
    (h2 : toInt (o 2) = .ok (p52 : Int)) (h9 : 1 ≤ p9) (h26 : p9 ≤ p26) (h52 : p26 ≤ p52) (hb : p52 - 1 + p26 ≤ 2147483647)
    (hb' : p26 + 1 ≤ 2147483647) :
    Computes ichiBatch o (p52 - 1 + p26) fun x j =>
      { tenkan := midChannel p9 x (p52 - 1 + p26 + j)
        kijun := midChannel p26 x (p52 - 1 + p26 + j)
        spanA := (midChannel p9 x (p52 - 1 + j) + midChannel p26 x (p52 - 1 + j)) / 2
        spanB := midChannel p52 x (p52 - 1 + j) } :=
  (ichi_run o p9 p26 p52 h0 h1 h2 h9 h26 h52 hb hb').congr fun x j => by
    rw [ichiVal, ichiA, show p52 - 1 + p26 + j - p26 = p52 - 1 + j by omega, ichiMid_eq _ _ _ (by omega), ichiMid_eq _ _ _ (by omega),
      ichiMid_eq _ _ _ (by omega), ichiMid_eq _ _ _ (by omega), ichiMid_eq _ _ _ (by omega)]
    simp

theorem ichi_contract_partial (o : Nat → R) (p9 p26 p52 : Nat) (h0 : toInt (o 0) = .ok (p9 : Int)) (h1 : toInt (o 1) = .ok (p26 : Int))
    (h2 : toInt (o 2) = .ok (p52 : Int)) (h9 : 1 ≤ p9) (h26 : p9 ≤ p26) (h52 : p26 ≤ p52) (hb : p52 - 1 + p26 ≤ 2147483647)
    (hb' : p26 + 1 ≤ 2147483647) : Contract ichiStart ichiBatch o (p52 - 1 + p26) :=
  (ichi_run o p9 p26 p52 h0 h1 h2 h9 h26 h52 hb hb').contract (ichiStart_ok h0 h1 h2 h9 h26 h52 hb)

theorem ichi_stream_eq_batch_partial (o : Nat → R) (p9 p26 p52 : Nat) (h0 : toInt (o 0) = .ok (p9 : Int)) (h1 : toInt (o 1) = .ok (p26 : Int))
    (h2 : toInt (o 2) = .ok (p52 : Int)) (h9 : 1 ≤ p9) (h26 : p9 ≤ p26) (h52 : p26 ≤ p52) (hb : p52 - 1 + p26 ≤ 2147483647)
    (hb' : p26 + 1 ≤ 2147483647) : (ichi (R := R)).StreamEqBatch o (p52 - 1 + p26) :=
  streamEqBatch_of (ichi_run o p9 p26 p52 h0 h1 h2 h9 h26 h52 hb hb') (ichi_stream_run o p9 p26 p52 h0 h1 h2 h9 h26 h52 hb hb')

theorem ichi_ref_eq_batch_partial [LawfulTrunc R] [LawfulRound R] (o : Nat → R) (p9 p26 p52 : Nat) (h0 : toInt (o 0) = .ok (p9 : Int))
    (h1 : toInt (o 1) = .ok (p26 : Int)) (h2 : toInt (o 2) = .ok (p52 : Int)) (h9 : 1 ≤ p9) (h26 : p9 ≤ p26) (h52 : p26 ≤ p52)
    (hb : p52 - 1 + p26 ≤ 2147483647) (hb' : p26 + 1 ≤ 2147483647) (xs : List (HL R)) (hN : p52 - 1 ≤ xs.length) :
    ichiRef o xs = ichiBatch o xs := by
  have r0 := toInt_range h0
  have r1 := toInt_range h1
  have r2 := toInt_range h2
  obtain ⟨x, hx⟩ := exists_pre xs
  have hN' := hN
  generalize xs.length = N at hx hN hN'
  rw [hx, ichi_value_partial o p9 p26 p52 h0 h1 h2 h9 h26 h52 hb hb' x]
  unfold ichiRef
  have ha : ∀ q : Nat, 1 ≤ q → q ≤ p52 → addrOf (N : Int) ((q : Int) - 1) = .ok () := by
    intro q hq hq'
    unfold addrOf
    rw [if_pos (by omega)]
  have hm : ∀ q : Nat, 1 ≤ q → q ≤ p52 → ∀ y : Nat → R, maxBatch (fun _ => (((q : Nat) : Int) : R)) (pre y N) = .ok (.okay, pre (winMax q y) (N - (q - 1))) :=
    fun q hq hq' y => max_value _ q (toInt_cast (R := R) (q : Int) (by omega)) hq y N
  have hn : ∀ q : Nat, 1 ≤ q → q ≤ p52 → ∀ y : Nat → R, minBatch (fun _ => (((q : Nat) : Int) : R)) (pre y N) = .ok (.okay, pre (winMin q y) (N - (q - 1))) :=
    fun q hq hq' y => min_value _ q (toInt_cast (R := R) (q : Int) (by omega)) hq y N
  rw [h0, bind_ok, h1, bind_ok, h2, bind_ok, ichiBad_ok h9 h26 h52, if_neg (by simp)]
  simp only [length_pre, map_pre, ha p9 h9 (by omega), ha p26 (by omega) h52, ha p52 (by omega) le_rfl, bind_ok, hm p9 h9 (by omega),
    hm p26 (by omega) h52, hm p52 (by omega) le_rfl, hn p9 h9 (by omega), hn p26 (by omega) h52, hn p52 (by omega) le_rfl,
    i32_ok _ (show -2147483648 ≤ (p52 : Int) - 1 by omega) (by omega), i32_ok _ (show -2147483648 ≤ (p52 : Int) - 1 + p26 by omega) (by omega)]
  by_cases hs : N ≤ p52 - 1 + p26
  · rw [forUp_empty (by omega), show N - (p52 - 1 + p26) = 0 by omega]
    rfl
  refine forUp_bind (p52 - 1 + p26) N (fun t => pre _ (t - (p52 - 1 + p26))) (by omega) rfl (by simp [pre]) (by omega) (fun i hi1 hi2 => ?_) rfl
  have hr : ∀ (q d : Nat) (y : Nat → R), 1 ≤ q → q ≤ p52 → d ≤ p26 → (q - 1 + d ≤ i) → ∀ k : Int, k = (i : Int) - d - ((q : Int) - 1) →
      rd (pre y (N - (q - 1))) k = .ok (y (i - d + 1 - q)) := by
    intro q d y hq1 hq2 hd hqd k hk
    exact rd_at (i - d + 1 - q) (by omega) (by omega)
  rw [hr p9 0 _ h9 (by omega) (by omega) (by omega) _ (by omega), bind_ok, hr p9 0 _ h9 (by omega) (by omega) (by omega) _ (by omega), bind_ok,
    hr p26 0 _ (by omega) (by omega) (by omega) (by omega) _ (by omega), bind_ok, hr p26 0 _ (by omega) (by omega) (by omega) (by omega) _ (by omega), bind_ok,
    hr p9 p26 _ h9 (by omega) (by omega) (by omega) _ (by omega), bind_ok, hr p9 p26 _ h9 (by omega) (by omega) (by omega) _ (by omega), bind_ok,
    hr p26 p26 _ (by omega) (by omega) (by omega) (by omega) _ (by omega), bind_ok, hr p26 p26 _ (by omega) (by omega) (by omega) (by omega) _ (by omega), bind_ok,
    hr p52 p26 _ (by omega) (by omega) (by omega) (by omega) _ (by omega), bind_ok, hr p52 p26 _ (by omega) (by omega) (by omega) (by omega) _ (by omega), bind_ok]
  rw [show i + 1 - (p52 - 1 + p26) = i - (p52 - 1 + p26) + 1 by omega]
  refine wr_pre _ _ (i - (p52 - 1 + p26)) _ (by omega) ?_
  simp only [midChannel, show p52 - 1 + p26 + (i - (p52 - 1 + p26)) = i by omega, show p52 - 1 + (i - (p52 - 1 + p26)) = i - p26 by omega, Nat.sub_zero]
  simp

/-! smi -/

theorem smiE_eq (q : Nat) (hq : 1 ≤ q) (r s : R) (x : Nat → HLC R) (t : Nat) :
    (smiE q r s x t).rNum = ema (2 / (1 + r)) (offMiddle q x) t ∧ (smiE q r s x t).sNum = smooth2 r s (offMiddle q x) t ∧
      (smiE q r s x t).rDen = ema (2 / (1 + r)) (fullRange q x) t ∧ (smiE q r s x t).sDen = smooth2 r s (fullRange q x) t := by
  unfold smooth2
  induction t with
  | zero =>
    simp only [smiE, smiFirst, ema, offMiddle, fullRange, recMax_full q _ (q - 1) (by omega), recMin_full q _ (q - 1) (by omega),
      show q - 1 + 1 - q = 0 by omega, Nat.zero_add]
    refine ⟨?_, ?_, trivial, trivial⟩ <;> (simp; ring)
  | succ t ih =>
    obtain ⟨i1, i2, i3, i4⟩ := ih
    have e : t + 1 + (q - 1) = q - 1 + (t + 1) := by omega
    simp only [smiE, smiNext, ema, i1, i2, i3, i4, offMiddle, fullRange, recMax_full q _ (q - 1 + (t + 1)) (by omega),
      recMin_full q _ (q - 1 + (t + 1)) (by omega), show q - 1 + (t + 1) + 1 - q = t + 1 by omega, e]
    refine ⟨?_, ?_, ?_, ?_⟩ <;> (simp; ring)

theorem smiVal_eq (q : Nat) (hq : 1 ≤ q) (r s : R) (x : Nat → HLC R) (t : Nat) : smiVal q r s x t = stochMomentum q r s x t := by
  obtain ⟨-, h2, -, h4⟩ := smiE_eq q hq r s x t
  rw [smiVal, smiOut, h2, h4, stochMomentum]
  by_cases h : smooth2 r s (fullRange q x) t = 0
  · simp [h]
  · simp [h]; ring

section
variable [LawfulTrunc R] [LawfulRound R]

theorem smi_ok {o : Nat → R} {q : Nat} (h0 : toInt (o 0) = .ok (q : Int)) (hq : 1 ≤ q) (h1 : 1 ≤ o 1) (h2 : 1 ≤ o 2) :
    smiBad o = false ∧ smiStart o = .ok ((q - 1 : Nat) : Int) := by
  refine ⟨?_, toInt_sub_one h0 hq⟩
  unfold smiBad
  rw [decide_eq_false (not_lt_one h0 hq), decide_eq_false (not_lt_one' h1), decide_eq_false (not_lt_one' h2)]
  rfl

/-- smi for integer window lengths from 2 on; see `smi_violates` for the others. -/
theorem smi_value_partial [LawfulCeil R] (o : Nat → R) (q : Nat) (h0 : o 0 = (q : R)) (hq : 2 ≤ q) (hb : q ≤ 2147483647) (h1 : 1 ≤ o 1) (h2 : 1 ≤ o 2) :
    Computes smiBatch o (q - 1) (stochMomentum q (o 1) (o 2)) := by
  have h0' : o 0 = ((q : Int) : R) := by rw [h0]; simp
  have hc : toInt (o 0) = .ok (q : Int) := by rw [h0']; exact toInt_cast _ (by omega)
  obtain ⟨ha, hs⟩ := smi_ok hc (by omega) h1 h2
  refine (smi_run o q h0' ha ?_ hs ?_ hq).congr fun x t => smiVal_eq q (by omega) _ _ x t
  · rw [toInt_negSucc hc (by omega)]; congr 1; omega
  · obtain ⟨n, e, a, b⟩ := LawfulCeil.ceil_spec (o 0)
    rw [e]
    have : n = (q : Int) := by
      rw [h0'] at a b
      have b' := Int.cast_le.1 b
      have a' : ((n - 1 : Int) : R) < ((q : Int) : R) := by push_cast; push_cast at a; exact a
      have := Int.cast_lt.1 a'
      omega
    rw [this]
    exact toInt_cast _ (by omega)

theorem smi_contract_partial [LawfulCeil R] (o : Nat → R) (q : Nat) (h0 : o 0 = (q : R)) (hq : 2 ≤ q) (hb : q ≤ 2147483647) (h1 : 1 ≤ o 1)
    (h2 : 1 ≤ o 2) : Contract smiStart smiBatch o (q - 1) := by
  have hc : toInt (o 0) = .ok (q : Int) := by rw [h0]; exact_mod_cast toInt_cast (R := R) q (by omega)
  exact (smi_value_partial o q h0 hq hb h1 h2).contract (smi_ok hc (by omega) h1 h2).2

/-- The stream uses the integer parts of all three options. -/
theorem smi_stream_value (o : Nat → R) (q r s : Nat) (h0 : toInt (o 0) = .ok (q : Int)) (h1 : toInt (o 1) = .ok (r : Int))
    (h2 : toInt (o 2) = .ok (s : Int)) (hq : 1 ≤ q) (hr : 1 ≤ r) (hs : 1 ≤ s) :
    (smi (R := R)).StreamComputes o (q - 1) (stochMomentum q (r : R) (s : R)) := by
  have w1 := (toInt_within h1 hr).1
  have w2 := (toInt_within h2 hs).1
  have l1 : (1 : R) ≤ (r : R) := by exact_mod_cast hr
  have l2 : (1 : R) ≤ (s : R) := by exact_mod_cast hs
  obtain ⟨ha, hst⟩ := smi_ok h0 hq (l1.trans w1) (l2.trans w2)
  exact StreamComputes.congr (smi_stream_run o q r s h0 h1 h2 ha hst hq) fun x t => by
    rw [smiVal_eq q hq]; simp

theorem smi_stream_eq_batch_partial [LawfulCeil R] (o : Nat → R) (q r s : Nat) (h0 : o 0 = (q : R)) (h1 : o 1 = (r : R)) (h2 : o 2 = (s : R))
    (hq : 2 ≤ q) (hr : 1 ≤ r) (hs : 1 ≤ s) (b0 : q ≤ 2147483647) (b1 : r ≤ 2147483647) (b2 : s ≤ 2147483647) :
    (smi (R := R)).StreamEqBatch o (q - 1) := by
  have c0 : toInt (o 0) = .ok (q : Int) := by rw [h0]; exact_mod_cast toInt_cast (R := R) q (by omega)
  have c1 : toInt (o 1) = .ok (r : Int) := by rw [h1]; exact_mod_cast toInt_cast (R := R) r (by omega)
  have c2 : toInt (o 2) = .ok (s : Int) := by rw [h2]; exact_mod_cast toInt_cast (R := R) s (by omega)
  have e1 : (1 : R) ≤ o 1 := by rw [h1]; exact_mod_cast hr
  have e2 : (1 : R) ≤ o 2 := by rw [h2]; exact_mod_cast hs
  have hv := smi_value_partial o q h0 hq b0 e1 e2
  rw [h1, h2] at hv
  exact streamEqBatch_of hv (smi_stream_value o q r s c0 c1 c2 (by omega) hr hs)

/-- smi lies between -100 and 100 when every close is between its low and high. -/
theorem smi_range_partial [LawfulCeil R] (o : Nat → R) (q : Nat) (h0 : o 0 = (q : R)) (hq : 2 ≤ q) (hb : q ≤ 2147483647) (h1 : 1 ≤ o 1)
    (h2 : 1 ≤ o 2) (x : Nat → HLC R) (hx : ∀ n, (x n).low ≤ (x n).close ∧ (x n).close ≤ (x n).high) (N : Nat) :
    ∃ v : Nat → R, smiBatch o (pre x N) = .ok (.okay, pre v (N - (q - 1))) ∧ ∀ t, -100 ≤ v t ∧ v t ≤ 100 := by
  refine ⟨_, smi_value_partial o q h0 hq hb h1 h2 x N, fun t => ?_⟩
  unfold stochMomentum
  split
  · constructor <;> norm_num
  rename_i hne
  have hone : ∀ k, |offMiddle q x k| ≤ fullRange q x k / 2 := by
    intro k
    have a := chan_le_max q (by omega) (fun i => (x i).high) k (k + (q - 1)) (by omega) (by omega)
    have b := chan_min_le q (by omega) (fun i => (x i).low) k (k + (q - 1)) (by omega) (by omega)
    have c := hx (k + (q - 1))
    unfold offMiddle fullRange
    rw [abs_le]
    constructor <;> linarith [c.1, c.2]
  have hhalf : ∀ (a : R) (y : Nat → R) (n : Nat), ema a (fun k => y k / 2) n = ema a y n / 2 := by
    intro a y n
    induction n with
    | zero => rfl
    | succ n ih => rw [ema, ema, ih]; ring
  have hb2 := ema_abs_le (coef_bounds' h2).1 (coef_bounds' h2).2 (ema (2 / (1 + o 1)) (offMiddle q x))
    (ema (2 / (1 + o 1)) (fun k => fullRange q x k / 2)) t fun k _ => ema_abs_le (coef_bounds' h1).1 (coef_bounds' h1).2 _ _ k fun k _ => hone k
  rw [show ema (2 / (1 + o 1)) (fun k => fullRange q x k / 2) = fun n => ema (2 / (1 + o 1)) (fullRange q x) n / 2 from funext fun n => hhalf _ _ n, hhalf] at hb2
  change |smooth2 (o 1) (o 2) (offMiddle q x) t| ≤ smooth2 (o 1) (o 2) (fullRange q x) t / 2 at hb2
  have hpos : 0 < smooth2 (o 1) (o 2) (fullRange q x) t / 2 := lt_of_le_of_ne ((abs_nonneg _).trans hb2) (by
    intro h; apply hne; linarith)
  have hq2 := abs_le.1 hb2
  have q1 := (div_le_one hpos).2 hq2.2
  have q2 : -1 ≤ smooth2 (o 1) (o 2) (offMiddle q x) t / (smooth2 (o 1) (o 2) (fullRange q x) t / 2) := by
    rw [le_div_iff₀ hpos]; linarith
  constructor <;> linarith

/-- The reference, on integer options. In exact arithmetic only: it divides by a zero range, where the batch call gives 0. -/
theorem smi_ref_eq_batch_partial [LawfulCeil R] (o : Nat → R) (q r s : Nat) (h0 : o 0 = (q : R)) (h1 : o 1 = (r : R)) (h2 : o 2 = (s : R))
    (hq : 2 ≤ q) (hr : 1 ≤ r) (hs : 1 ≤ s) (b0 : q ≤ 2147483647) (b1 : r ≤ 2147483647) (b2 : s ≤ 2147483647) (xs : List (HLC R))
    (hN : xs.length ≤ 2147483647) : smiRef o xs = smiBatch o xs := by
  have c0 : toInt (o 0) = .ok (q : Int) := by rw [h0]; exact_mod_cast toInt_cast (R := R) q (by omega)
  have c1 : toInt (o 1) = .ok (r : Int) := by rw [h1]; exact_mod_cast toInt_cast (R := R) r (by omega)
  have c2 : toInt (o 2) = .ok (s : Int) := by rw [h2]; exact_mod_cast toInt_cast (R := R) s (by omega)
  have e1 : (1 : R) ≤ o 1 := by rw [h1]; exact_mod_cast hr
  have e2 : (1 : R) ≤ o 2 := by rw [h2]; exact_mod_cast hs
  obtain ⟨x, hx⟩ := exists_pre xs
  generalize xs.length = N at hx hN
  rw [hx, smi_value_partial o q h0 hq b0 e1 e2 x]
  unfold smiRef
  have hst : maxStart o = .ok ((q - 1 : Nat) : Int) := (max_contract o q c0 (by omega)).1
  rw [(smi_ok c0 (by omega) e1 e2).1, if_neg (by simp), hst, bind_ok, length_pre, i32_ok _ (by omega) (by omega), bind_ok, map_pre, map_pre,
    max_value o q c0 (by omega), bind_ok, min_value o q c0 (by omega), bind_ok]
  have em : ∀ (y : Nat → R) n, emaRec (emaPer s) (emaRec (emaPer r) y) n = smooth2 (o 1) (o 2) y n := by
    intro y n
    rw [emaRec_eq, show emaRec (emaPer (r : Int)) y = ema (emaCoef r) y from funext fun k => by rw [emaRec_eq, emaPer_eq],
      emaPer_eq, smooth2, emaCoef, emaCoef, add_comm (1 : R), add_comm (1 : R), h1, h2]
  by_cases hs' : N < q - 1
  · rw [forUp_empty (by omega), bind_ok, show N - (q - 1) = 0 by omega]
    have i1 := emaInPlace_pre (o := fun _ => o 1) c1 hr (fun _ => (0 : R)) 0
    have i2 := emaInPlace_pre (o := fun _ => o 2) c2 hs (fun _ => (0 : R)) 0
    simp only [pre_zero] at i1 i2
    dsimp only
    rw [i1, bind_ok, i2, bind_ok, bind_ok, i2, bind_ok, forUp_empty (by omega)]
    rfl
  refine forUp_bind 0 (N - (q - 1)) (fun t => (pre (offMiddle q x) t, pre (fullRange q x) t)) rfl (by omega) rfl (by omega) (fun i _ hi => ?_) ?_
  · dsimp only
    rw [rd_at (i + (q - 1)) (by omega) (by omega), bind_ok, rd_pre_nat _ _ _ hi, bind_ok, rd_pre_nat _ _ _ hi, bind_ok, pre_succ _ i, pre_succ _ i]
    simp only [pure_eq, offMiddle, fullRange]
    simp
    ring
  · dsimp only
    rw [emaInPlace_pre (o := fun _ => o 1) c1 hr, bind_ok, emaInPlace_pre (o := fun _ => o 2) c2 hs, bind_ok,
      emaInPlace_pre (o := fun _ => o 1) c1 hr, bind_ok, emaInPlace_pre (o := fun _ => o 2) c2 hs, bind_ok]
    refine forUp_bind 0 (N - (q - 1)) (fun t => pre (stochMomentum q (o 1) (o 2) x) t) rfl (by omega) rfl (by omega) (fun i _ hi => ?_) rfl
    rw [rd_pre_nat _ _ _ hi, bind_ok, rd_pre_nat _ _ _ hi, bind_ok]
    refine wr_pre _ _ i _ (by omega) ?_
    rw [em, em, stochMomentum]
    by_cases h : smooth2 (o 1) (o 2) (fullRange q x) i = 0
    · simp [h]
    · simp [h]; ring

/-- However the bars are split, the stream gives the same outputs. -/
theorem smi_chunks (o : Nat → R) : (smi (R := R)).ChunkInvariant o := by
  refine chunkInvariant_of' fun k p s hn => ?_
  simp only [smi, smiNew] at hn
  cases hb : smiBad o with
  | true => rw [hb] at hn; cases hn
  | false =>
    rw [hb, if_neg (by simp)] at hn
    cases hs : smiStart o with
    | error e => rw [hs] at hn; cases hn
    | ok q =>
      rw [hs, bind_ok] at hn
      have h1 : (1 : R) ≤ o 0 := by
        by_contra h
        unfold smiBad at hb
        rw [decide_eq_true (show o 0 < c! 1 by simpa using h)] at hb
        cases hb
      have hq : 0 ≤ q := by
        unfold smiStart toInt i32 at hs
        split at hs
        · cases hs
          have ht := (LawfulRound.trunc_nonneg (o 0 - c! 1) (by simpa using h1)).2
          have hz : ((0 : Int) : R) < ((CMath.trunc (o 0 - c! 1) + 1 : Int) : R) := by
            push_cast
            have : (0 : R) ≤ o 0 - 1 := by linarith
            simp only [Int.cast_one] at ht
            linarith
          have := Int.cast_lt.1 hz
          omega
        · cases hs
      obtain ⟨n, rfl⟩ := Int.eq_ofNat_of_zero_le hq
      have hp : p = -(n : Int) := by
        cases h0 : toInt (o 0) with
        | error e => rw [h0] at hn; cases hn
        | ok a =>
          cases h1 : toInt (o 1) with
          | error e => rw [h0, bind_ok, h1] at hn; cases hn
          | ok b =>
            cases h2 : toInt (o 2) with
            | error e => rw [h0, bind_ok, h1, bind_ok, h2] at hn; cases hn
            | ok c =>
              rw [h0, bind_ok, h1, bind_ok, h2, bind_ok] at hn
              cases hm : (Ring.make a : M (Ring R)) with
              | error e => rw [hm] at hn; cases hn
              | ok m => rw [hm] at hn; cases hn; rfl
      rw [hp]
      exact smiPhases_ordered n _

/-- A window of one bar: the first bar gives no output and the second reads averages that have not been assigned. -/
theorem smi_one_violates [LawfulCeil R] (o : Nat → R) (h0 : o 0 = 1) (h1 : 1 ≤ o 1) (h2 : 1 ≤ o 2) (a b : HLC R) (xs : List (HLC R)) :
    smiBatch o (a :: b :: xs) = .error .uninit := by
  have hc : toInt (o 0) = .ok ((1 : Nat) : Int) := by rw [h0]; exact_mod_cast toInt_cast (R := R) 1 (by omega)
  obtain ⟨ha, hs⟩ := smi_ok hc le_rfl h1 h2
  obtain ⟨x, hx⟩ := exists_pre (a :: b :: xs)
  have hb : ∀ p : Int, (((p : Int) : R) == -(o 0) + c! 1) = decide (p = 0) := by
    intro p
    rw [Bool.eq_iff_iff, beq_iff_eq, decide_eq_true_iff, h0]
    simp
  have hp0 : toInt (-(o 0) + c! 1) = .ok 0 := by rw [toInt_negSucc hc le_rfl]; rfl
  have hceil : toInt (CMath.ceil (o 0)) = .ok 1 := by
    obtain ⟨n, e, a, b⟩ := LawfulCeil.ceil_spec (o 0)
    rw [e]
    have : n = 1 := by
      rw [h0] at a b
      have b' : ((1 : Int) : R) ≤ (n : R) := by simpa using b
      have a' : ((n : Int) : R) < ((2 : Int) : R) := by push_cast; linarith
      have := Int.cast_le.1 b'
      have := Int.cast_lt.1 a'
      omega
    rw [this]
    exact toInt_cast _ (by omega)
  have hN : 1 < (a :: b :: xs).length := by simp
  generalize (a :: b :: xs).length = N at hx hN
  unfold smiBatch
  rw [ha, if_neg (by simp), hp0, bind_ok, hs, bind_ok, hx]
  refine loopBatch_err _ ?_ x (fun n => if n = 0 then (⟨.unset, none⟩ : SmiS R) else ⟨⟨⟨some (x 0).high, some 0⟩, ⟨some (x 0).low, some 0⟩⟩, none⟩)
    (fun _ => []) .uninit 1 rfl (fun n hn => ?_) ?_ _ hN
  · refine ⟨?_, fun p _ => ⟨_, List.mem_cons_of_mem _ (List.mem_cons_of_mem _ (List.mem_cons_of_mem _ (List.mem_cons_self ..))), rfl⟩⟩
    simp only [smiLoops, Phases.Leaves, decide_eq_false_iff_not, hb]
    intro p hp0 hp
    refine ⟨by omega, fun q' _ hq' => ⟨by omega, fun r _ hr => ⟨by omega, fun s _ hs => by simp at hs⟩⟩⟩
  · obtain rfl : n = 0 := by omega
    simp only [barStep, smiLoops, List.find?, hb]
    rfl
  · simp only [barStep, smiLoops, List.find?, hb, map_pre]
    rw [decide_eq_false (by omega), decide_eq_false (by omega)]
    dsimp only
    rw [if_neg (by omega)]
    have e : ∀ (cmp rep : R → R → Bool) (y : Nat → R) (v : R), (⟨some v, some 0⟩ : Ext R).smi cmp rep (o 0) (pre y N) (0 + ((1 : Nat) : Int) - 0) (0 + ((1 : Nat) : Int)) =
        .ok ⟨some (y 1), some 1⟩ := by
      intro cmp rep y v
      unfold Ext.smi
      simp only [getV, bind_ok]
      rw [rd_at 1 (by omega) hN, bind_ok, h0, if_pos (by simp), ← h0, hceil, bind_ok, forUp_empty (by omega)]
      rfl
    rw [e, bind_ok, e, bind_ok]
    rfl

/-- A window length that is not an integer: the first bar compares with a variable that has not been assigned. -/
theorem smi_violates (o : Nat → R) (q : Nat) (h0 : toInt (o 0) = .ok (q : Int)) (hq : 1 ≤ q) (hne : o 0 ≠ (q : R)) (h1 : 1 ≤ o 1) (h2 : 1 ≤ o 2)
    (a : HLC R) (xs : List (HLC R)) : smiBatch o (a :: xs) = .error .uninit := by
  obtain ⟨ha, hs⟩ := smi_ok h0 hq h1 h2
  have hr := toInt_range h0
  have hw := toInt_within h0 hq
  obtain ⟨x, hx⟩ := exists_pre (a :: xs)
  have hb : ∀ p : Int, (((p : Int) : R) == -(o 0) + c! 1) = false := by
    intro p
    rw [beq_eq_false_iff_ne]
    intro h
    apply hne
    have e : o 0 = ((1 - p : Int) : R) := by push_cast; push_cast at h; linarith
    rw [e] at hw ⊢
    have l1 : ((q : Int) : R) ≤ ((1 - p : Int) : R) := by exact_mod_cast hw.1
    have l2 : ((1 - p : Int) : R) < ((q + 1 : Int) : R) := by push_cast; push_cast at hw; linarith [hw.2]
    have l1 := Int.cast_le.1 l1
    have l2 := Int.cast_lt.1 l2
    have : 1 - p = (q : Int) := by omega
    rw [this]; simp
  have hp0 : toInt (-(o 0) + c! 1) = .ok (-((q - 1 : Nat) : Int)) := by
    rw [toInt_negSucc h0 hq]; congr 1; omega
  unfold smiBatch
  rw [ha, if_neg (by simp), hp0, bind_ok, hs, bind_ok, hx]
  refine loopBatch_err _ ?_ x (fun _ => (⟨.unset, none⟩ : SmiS R)) (fun _ => []) .uninit 0 rfl (fun n hn => by omega) ?_ _ (by simp)
  · refine ⟨?_, fun p _ => ⟨_, List.mem_cons_of_mem _ (List.mem_cons_of_mem _ (List.mem_cons_of_mem _ (List.mem_cons_self ..))), rfl⟩⟩
    simp only [smiLoops, Phases.Leaves, decide_eq_false_iff_not, hb]
    intro p _ _
    refine ⟨by simp, fun q' _ hq' => ⟨by omega, fun r _ hr => ⟨by omega, fun s _ hs => by simp at hs⟩⟩⟩
  · simp only [barStep, smiLoops, List.find?, hb]
    rcases Nat.lt_or_ge 1 q with h | h
    · rw [decide_eq_true (by omega)]
      rfl
    · rw [decide_eq_false (by omega), decide_eq_true (by omega)]
      rfl

end
end Exact

/-! ### Concrete cases -/

section Examples

def chanBars : List (HL ℚ) := [⟨3, 1⟩, ⟨5, 2⟩, ⟨4, 3⟩, ⟨2, 0⟩, ⟨6, 5⟩]
example : toInt (opts [2] 0 : ℚ) = .ok (2 : Nat) := by decide +kernel
example : pcBatch (opts [2]) chanBars = .ok (.okay, [⟨5, 1⟩, ⟨5, 2⟩, ⟨4, 0⟩, ⟨6, 0⟩]) := by decide +kernel
example : pcBatch (opts [1]) chanBars = .error .uninit := by decide +kernel
example : ichiBatch (opts [1, 1, 2]) chanBars =
    .ok (.okay, [⟨7/2, 7/2, 7/2, 3⟩, ⟨1, 1, 7/2, 7/2⟩, ⟨11/2, 11/2, 1, 2⟩]) := by decide +kernel

def chanHlc : List (HLC ℚ) := [⟨3, 1, 2⟩, ⟨5, 2, 4⟩, ⟨4, 3, 3⟩, ⟨2, 0, 1⟩]
example : ∀ b ∈ chanHlc, b.low ≤ b.close ∧ b.close ≤ b.high := by decide +kernel
example : ceBatch (opts [2, 1]) chanHlc = .ok (.okay, [⟨5/2, 7/2⟩, ⟨13/4, 15/4⟩, ⟨13/8, 19/8⟩]) := by decide +kernel
example : smiBatch (opts [2, 1, 1]) chanHlc = .ok (.okay, [50, -100/3, -50]) := by decide +kernel
example : smiBatch (opts [5/2, 1, 1]) chanHlc = .error .uninit := by decide +kernel
example : smiBatch (opts [1, 1, 1]) chanHlc = .error .uninit := by decide +kernel

end Examples
end Verif
