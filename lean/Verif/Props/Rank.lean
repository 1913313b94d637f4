/-
C48 and C03, C32-C36 for hwma and rmf.
-/
import Verif.Proof.Rank
import Verif.Props.Flow
import Verif.Spec.Rank
import Verif.Core.RealInst

set_option linter.unusedSectionVars false
set_option linter.unusedSimpArgs false
set_option linter.unusedVariables false

namespace Verif
open Spec Finset

section Any
variable {R : Type} [Num R]

theorem hwma_contract (o : Nat → R) (p : Nat) (hc : toInt (o 0) = .ok (p : Int)) (h7 : 7 ≤ p) (h13 : p ≤ 13) :
    Contract hwmaStart hwmaBatch o (p - 1) := (hwma_run o p hc h7 h13).contract (hwmaStart_ok hc (by omega))

/-- The stream and the reference refuse periods outside 7..13. For the batch call see `hwma_violates`. -/
theorem hwma_refuses_partial (o : Nat → R) (p : Int) (hc : toInt (o 0) = .ok p) (h : p < 7 ∨ 13 < p) :
    Refuses hwmaRef o ∧ (hwma (R := R)).NewRefuses o :=
  ⟨fun xs => by simp only [hwmaRef, hc, bind_ok, if_pos h]; rfl, by
    simp only [Indicator.NewRefuses, hwma, hwmaNew, hc, bind_ok, if_pos h]; rfl⟩

/-- For a period outside 7..13 the batch call indexes its table out of bounds before it refuses the period. -/
theorem hwma_violates (o : Nat → R) (p : Int) (hc : toInt (o 0) = .ok p) (h : p < 7 ∨ 13 < p) (xs : List R) :
    ∃ e, hwmaBatch o xs = .error e := by
  have hr := toInt_range hc
  unfold hwmaBatch
  rw [hc, bind_ok]
  by_cases h1 : p - 7 < -2147483648
  · refine ⟨.intRange, bind_err ?_⟩
    unfold i32
    rw [if_neg (by omega)]
  rw [i32_ok _ (by omega) (by omega), bind_ok]
  refine ⟨.badPtr, bind_err ?_⟩
  unfold hwmaRow
  by_cases h0 : 0 ≤ p - 7
  · rw [if_pos h0]
    have : hwmaTable[(p - 7).toNat]? = none := by
      rw [List.getElem?_eq_none_iff]
      show 7 ≤ _
      omega
    rw [this]
  · rw [if_neg h0]

theorem hwma_ref_eq_batch (o : Nat → R) (p : Nat) (hc : toInt (o 0) = .ok (p : Int)) (h7 : 7 ≤ p) (h13 : p ≤ 13) (xs : List R) :
    hwmaRef o xs = hwmaBatch o xs := by
  have : Inhabited R := ⟨c! 0⟩
  obtain ⟨x, hx⟩ := exists_pre xs
  rw [hx, hwma_run o p hc h7 h13, hwmaRef_run o p hc h7 h13]

theorem hwma_chunks (o : Nat → R) : (hwma (R := R)).ChunkInvariant o := chunkInvariant_of (fun k => hwmaPhases_ordered k) o

theorem rmf_refuses (o : Nat → R) (h : o 1 < c! 1 ∨ o 0 < c! 1 ∨ ∃ q, toInt (o 1) = .ok q ∧ Int.tmod q 2 ≠ 1) :
    Refuses rmfBatch o ∧ (rmf (R := R)).NewRefuses o := by
  have hb : rmfBad o = .ok true := by
    unfold rmfBad
    by_cases h1 : o 1 < c! 1
    · rw [if_pos h1]; rfl
    rw [if_neg h1]
    by_cases h0 : o 0 < c! 1
    · rw [if_pos h0]; rfl
    rw [if_neg h0]
    obtain ⟨q, hq, hm⟩ := (h.resolve_left h1).resolve_left h0
    rw [hq, bind_ok, decide_eq_false hm]
    rfl
  exact ⟨fun xs => by simp only [rmfBatch, hb, bind_ok]; rfl, by simp only [Indicator.NewRefuses, rmf, rmfNew, hb, bind_ok]; rfl⟩

end Any

section Exact
variable {R : Type} [Field R] [LinearOrder R] [IsStrictOrderedRing R] [CMath R]

theorem hwmaW_eq (p j : Nat) (h7 : 7 ≤ p) (h13 : p ≤ 13) (hj : j ≤ 12) : hwmaW p j = (hendersonWeights p).getD j 0 := by
  obtain rfl | rfl | rfl | rfl | rfl | rfl | rfl : p = 7 ∨ p = 8 ∨ p = 9 ∨ p = 10 ∨ p = 11 ∨ p = 12 ∨ p = 13 := by omega
  all_goals
    obtain rfl | rfl | rfl | rfl | rfl | rfl | rfl | rfl | rfl | rfl | rfl | rfl | rfl : j = 0 ∨ j = 1 ∨ j = 2 ∨ j = 3 ∨ j = 4 ∨ j = 5 ∨
      j = 6 ∨ j = 7 ∨ j = 8 ∨ j = 9 ∨ j = 10 ∨ j = 11 ∨ j = 12 := by omega
    all_goals rfl

theorem hwmaSum_eq (p : Nat) (h7 : 7 ≤ p) (h13 : p ≤ 13) (x : Nat → R) (i m : Nat) (hm : m ≤ 13) :
    hwmaSum p x i m = ∑ j ∈ range m, (((hendersonWeights p).getD j 0 : Int) : R) / 1000 * x (i - j) := by
  induction m with
  | zero => simp [hwmaSum]
  | succ m ih => rw [hwmaSum, ih (by omega), sum_range_succ, hwmaW_eq p m h7 h13 (by omega)]; simp

/-- hwma is the weighted average with Henderson's end-point weights. -/
theorem hwma_value (o : Nat → R) (p : Nat) (hc : toInt (o 0) = .ok (p : Int)) (h7 : 7 ≤ p) (h13 : p ≤ 13) :
    Computes hwmaBatch o (p - 1) fun x t => henderson p x (p - 1 + t) :=
  (hwma_run o p hc h7 h13).congr fun x t => by rw [hwmaVal, hwmaSum_eq p h7 h13 x _ p h13]; rfl

theorem hwmaStr_eq (p : Nat) (h7 : 7 ≤ p) (h13 : p ≤ 13) (x : Nat → R) (n : Nat) (hn : p - 1 ≤ n) :
    hwmaStr p x n = henderson p x n := by
  have ht : ∀ j, j ≤ 12 → p ≤ j → hwmaTerm p x n j = 0 := by
    intro j hj hp
    unfold hwmaTerm
    rw [hwmaW_eq p j h7 h13 hj]
    have : (hendersonWeights p).getD j 0 = 0 := by
      rw [List.getD_eq_getElem?_getD, List.getElem?_eq_none]
      · rfl
      obtain rfl | rfl | rfl | rfl | rfl | rfl | rfl : p = 7 ∨ p = 8 ∨ p = 9 ∨ p = 10 ∨ p = 11 ∨ p = 12 ∨ p = 13 := by omega
      all_goals exact hp
    rw [this]; simp
  have hj : ∀ j, j < p → hwmaTerm p x n j = (((hendersonWeights p).getD j 0 : Int) : R) / 1000 * x (n - j) := by
    intro j hj
    unfold hwmaTerm
    rw [hwmaW_eq p j h7 h13 (by omega), if_pos (by omega)]
    simp
  have h0 : ((hwmaW p 0 : Int) : R) / c! 1000 * x n = hwmaTerm p x n 0 := by simp [hwmaTerm]
  have key : hwmaStr p x n = ∑ j ∈ range 13, hwmaTerm p x n j := by
    unfold hwmaStr
    rw [h0]
    simp only [sum_range_succ, sum_range_zero]
    ring
  rw [key]
  unfold henderson
  rw [← sum_range_add_sum_Ico (fun j => hwmaTerm p x n j) (show p ≤ 13 from h13)]
  rw [sum_congr rfl (fun j hj' => hj j (mem_range.1 hj')), sum_eq_zero (s := Ico p 13), add_zero]
  intro j hj'
  have := mem_Ico.1 hj'
  exact ht j (by omega) this.1

/-- The stream of hwma computes the same averages. -/
theorem hwma_stream_value (o : Nat → R) (p : Nat) (hc : toInt (o 0) = .ok (p : Int)) (h7 : 7 ≤ p) (h13 : p ≤ 13) :
    (hwma (R := R)).StreamComputes o (p - 1) fun x t => henderson p x (p - 1 + t) :=
  StreamComputes.congr (hwma_stream_run o p hc h7 h13) fun x t => hwmaStr_eq p h7 h13 x _ (by omega)

/-- Up to rounding: the stream adds its terms in another order and multiplies older prices by zero weights. -/
theorem hwma_stream_eq_batch_partial (o : Nat → R) (p : Nat) (hc : toInt (o 0) = .ok (p : Int)) (h7 : 7 ≤ p) (h13 : p ≤ 13) :
    (hwma (R := R)).StreamEqBatch o (p - 1) := streamEqBatch_of (hwma_value o p hc h7 h13) (hwma_stream_value o p hc h7 h13)

/-- hwma reproduces a constant. -/
theorem hwma_constant (p : Nat) (h7 : 7 ≤ p) (h13 : p ≤ 13) (c : R) (i : Nat) : henderson p (fun _ => c) i = c := by
  unfold henderson
  rw [← sum_mul]
  suffices h : ∑ j ∈ range p, (((hendersonWeights p).getD j 0 : Int) : R) / 1000 = 1 by rw [h, one_mul]
  rw [← sum_div, ← Int.cast_sum]
  have : ∑ j ∈ range p, (hendersonWeights p).getD j 0 = 1000 := by
    obtain rfl | rfl | rfl | rfl | rfl | rfl | rfl : p = 7 ∨ p = 8 ∨ p = 9 ∨ p = 10 ∨ p = 11 ∨ p = 12 ∨ p = 13 := by omega
    all_goals rfl
  rw [this]
  norm_num

/-! rmf -/

theorem sorted_median (s : List R) (k : Nat) (hs : s.Pairwise (· ≤ ·)) (hl : s.length = 2 * k + 1) : IsMedian s (s.getD k 0) := by
  have hk : k < s.length := by omega
  have e : s.getD k 0 = s[k] := by simp [List.getD_eq_getElem?_getD, List.getElem?_eq_getElem hk]
  rw [e]
  refine ⟨List.getElem_mem _, ?_, ?_⟩
  · have h : s.length = 2 * k + 1 := hl
    have hsub : (s.take (k + 1)).Sublist (s.filter fun v => decide (v ≤ s[k])) := by
      have h1 : (s.take (k + 1)).filter (fun v => decide (v ≤ s[k])) = s.take (k + 1) := by
        rw [List.filter_eq_self]
        intro v hv
        obtain ⟨i, hi, rfl⟩ := List.mem_iff_getElem.1 hv
        simp only [List.length_take] at hi
        rw [List.getElem_take]
        by_cases hik : i = k
        · subst hik; simp
        · exact decide_eq_true (List.pairwise_iff_getElem.1 hs i k (by omega) hk (by omega))
      rw [← h1]
      exact (List.take_sublist _ _).filter _
    have := hsub.length_le
    rw [List.length_take] at this
    omega
  · have hsub : (s.drop k).Sublist (s.filter fun v => decide (s[k] ≤ v)) := by
      have h1 : (s.drop k).filter (fun v => decide (s[k] ≤ v)) = s.drop k := by
        rw [List.filter_eq_self]
        intro v hv
        obtain ⟨i, hi, rfl⟩ := List.mem_iff_getElem.1 hv
        simp only [List.length_drop] at hi
        rw [List.getElem_drop]
        by_cases hik : i = 0
        · subst hik; simp
        · exact decide_eq_true (List.pairwise_iff_getElem.1 hs k (k + i) hk (by omega) (by omega))
      rw [← h1]
      exact (List.drop_sublist _ _).filter _
    have := hsub.length_le
    rw [List.length_drop] at this
    omega

theorem median_perm {s w : List R} (hp : s.Perm w) {m : R} (h : IsMedian s m) : IsMedian w m :=
  ⟨hp.mem_iff.1 h.1, by rw [← hp.length_eq, ← (hp.filter _).length_eq]; exact h.2.1, by
    rw [← hp.length_eq, ← (hp.filter _).length_eq]; exact h.2.2⟩

/-- An odd window has one median. -/
theorem median_unique {w : List R} {a b : R} (ha : IsMedian w a) (hb : IsMedian w b) : a = b := by
  have key : ∀ {a b : R}, IsMedian w a → IsMedian w b → ¬ a < b := by
    intro a b ha hb hlt
    have h1 := ha.2.1
    have h2 := hb.2.2
    have hd : ∀ w : List R, (w.filter fun v => decide (v ≤ a)).length + (w.filter fun v => decide (b ≤ v)).length ≤ w.length := by
      intro w
      induction w with
      | nil => simp
      | cons v w ih =>
        simp only [List.filter_cons]
        by_cases h1 : v ≤ a
        · have h2 : ¬ b ≤ v := not_le.2 (lt_of_le_of_lt h1 hlt)
          simp only [h1, h2, decide_true, decide_false, if_true, List.length_cons, Bool.false_eq_true, if_false]; omega
        · by_cases h2 : b ≤ v <;> simp only [h1, h2, decide_true, decide_false, if_true, List.length_cons, Bool.false_eq_true, if_false] <;> omega
    have := hd w
    omega
  exact le_antisymm (not_lt.1 (key hb ha)) (not_lt.1 (key ha hb))

theorem rmfMid_median (k : Nat) (x : Nat → R) (t : Nat) : IsMedian (seg x t (2 * k + 1)) (rmfMid k x t) := by
  have h := sorted_median (rank (seg x t (2 * k + 1))) k (rank_sorted _) (by rw [(rank_perm _).length_eq, length_seg])
  have := median_perm (rank_perm _) h
  unfold rmfMid
  simpa using this

variable [LawfulTrunc R] [LawfulRound R]

/-- The options rmf accepts, with `2k+1` the integer part of the median period. -/
theorem rmf_options {o : Nat → R} {k : Nat} (hc : toInt (o 1) = .ok ((2 * k + 1 : Nat) : Int)) (h0 : 1 ≤ o 0) :
    rmfBad o = .ok false ∧ rmfStart o = .ok ((2 * k : Nat) : Int) ∧ toInt (o 1 / c! 2) = .ok (k : Int) := by
  have hr := toInt_range hc
  have hw := toInt_within hc (by omega)
  push_cast at hw
  have hk : (0 : R) ≤ (k : R) := Nat.cast_nonneg k
  refine ⟨?_, ?_, ?_⟩
  · unfold rmfBad
    rw [if_neg (by simpa using (by linarith [hw.1] : (1 : R) ≤ o 1)), if_neg (by simpa using h0), hc, bind_ok,
      decide_eq_true (by rw [Int.tmod_eq_emod_of_nonneg (by omega)]; omega)]
    rfl
  · unfold rmfStart
    refine toInt_of_within ?_ ?_ (by omega) <;> push_cast <;> linarith [hw.1, hw.2]
  · refine toInt_of_within ?_ ?_ (by omega)
    · simp only [Int.cast_ofNat]; linarith [hw.1]
    · simp only [Int.cast_ofNat]; linarith [hw.2]

theorem rmf_contract (o : Nat → R) (k : Nat) (hc : toInt (o 1) = .ok ((2 * k + 1 : Nat) : Int)) (h0 : 1 ≤ o 0) :
    Contract rmfStart rmfBatch o (2 * k) := by
  obtain ⟨h1, h2, h3⟩ := rmf_options hc h0
  exact (rmf_run o k h1 h2 h3).contract h2

theorem rmf_stream_eq_batch (o : Nat → R) (k : Nat) (hc : toInt (o 1) = .ok ((2 * k + 1 : Nat) : Int)) (h0 : 1 ≤ o 0) :
    (rmf (R := R)).StreamEqBatch o (2 * k) := by
  obtain ⟨h1, h2, h3⟩ := rmf_options hc h0
  exact streamEqBatch_of (rmf_run o k h1 h2 h3) (rmf_stream_run o k h1 h2 h3)

/-- However the bars are split, the stream gives the same outputs. -/
theorem rmf_chunks (o : Nat → R) : (rmf (R := R)).ChunkInvariant o := by
  refine chunkInvariant_of' fun k p s hn => ?_
  simp only [rmf, rmfNew] at hn
  cases hb : rmfBad o with
  | error e => rw [hb] at hn; cases hn
  | ok b =>
    rw [hb, bind_ok] at hn
    cases b with
    | true => cases hn
    | false =>
      cases hs : rmfStart o with
      | error e => rw [hs] at hn; cases hn
      | ok q =>
        rw [hs] at hn
        cases hn
        have h1 : (1 : R) ≤ o 1 := by
          by_contra h
          unfold rmfBad at hb
          rw [if_pos (by simpa using h)] at hb
          cases hb
        have hq : 0 ≤ q := by
          unfold rmfStart toInt i32 at hs
          split at hs
          · cases hs
            have ht := (LawfulRound.trunc_nonneg (o 1 - c! 1) (by simpa using h1)).2
            have hz : ((0 : Int) : R) < ((CMath.trunc (o 1 - c! 1) + 1 : Int) : R) := by
              push_cast
              have : (0 : R) ≤ o 1 - 1 := by linarith
              simp only [Int.cast_one] at ht
              linarith
            have := Int.cast_lt.1 hz
            omega
          · cases hs
        obtain ⟨n, rfl⟩ := Int.eq_ofNat_of_zero_le hq
        exact rmfPhases_ordered n _

/-- rmf is the exponential smoothing of the medians of the windows, starting at the first one. -/
theorem rmf_value (o : Nat → R) (k : Nat) (hc : toInt (o 1) = .ok ((2 * k + 1 : Nat) : Int)) (h0 : 1 ≤ o 0) (x : Nat → R)
    (med : Nat → R) (hmed : ∀ t, IsMedian (seg x t (2 * k + 1)) (med t)) (alpha : R)
    (ha : alpha = (CMath.cos (2 * CMath.acos (-1) / o 0) + CMath.sin (2 * CMath.acos (-1) / o 0) - 1) /
      CMath.cos (2 * CMath.acos (-1) / o 0)) :
    ∃ v : Nat → R, v 0 = med 0 ∧ (∀ t, v (t + 1) = alpha * med (t + 1) + (1 - alpha) * v t) ∧
      ∀ N, rmfBatch o (pre x N) = .ok (.okay, pre v (N - 2 * k)) := by
  obtain ⟨h1, h2, h3⟩ := rmf_options hc h0
  have e : rmfAlpha (o 0) = alpha := by rw [ha]; simp [rmfAlpha]
  have em : ∀ t, rmfMid k x t = med t := fun t => median_unique (rmfMid_median k x t) (hmed t)
  refine ⟨rmfVal k (rmfAlpha (o 0)) x, em 0, fun t => ?_, fun N => rmf_run o k h1 h2 h3 x N⟩
  rw [rmfVal, em, e]
  simp

/-- With a smoothing factor in [0,1], rmf stays between bounds of the prices. -/
theorem rmf_bounds_partial (o : Nat → R) (k : Nat) (hc : toInt (o 1) = .ok ((2 * k + 1 : Nat) : Int)) (h0 : 1 ≤ o 0)
    (ha : 0 ≤ rmfAlpha (o 0) ∧ rmfAlpha (o 0) ≤ 1) (lo hi : R) (xs out : List R) (hx : ∀ v ∈ xs, lo ≤ v ∧ v ≤ hi)
    (h : rmfBatch o xs = .ok (.okay, out)) : ∀ v ∈ out, lo ≤ v ∧ v ≤ hi := by
  obtain ⟨h1, h2, h3⟩ := rmf_options hc h0
  obtain ⟨x, hxs⟩ := exists_pre xs
  rw [hxs, rmf_run o k h1 h2 h3] at h
  cases h
  have hxx : ∀ i, i < xs.length → lo ≤ x i ∧ x i ≤ hi := by
    intro i hi'
    refine hx _ ?_
    rw [hxs]
    exact List.mem_map.2 ⟨i, List.mem_range.2 hi', rfl⟩
  have hm : ∀ t, t + 2 * k < xs.length → lo ≤ rmfMid k x t ∧ rmfMid k x t ≤ hi := by
    intro t ht
    obtain ⟨i, hi', e⟩ := List.mem_map.1 (rmfMid_median k x t).1
    rw [← e]
    have := List.mem_range.1 hi'
    exact hxx _ (by omega)
  have key : ∀ t, t + 2 * k < xs.length → lo ≤ rmfVal k (rmfAlpha (o 0)) x t ∧ rmfVal k (rmfAlpha (o 0)) x t ≤ hi := by
    intro t
    induction t with
    | zero => exact hm 0
    | succ t ih =>
      intro ht
      have a := hm (t + 1) ht
      have b := ih (by omega)
      rw [rmfVal]
      simp only [Int.cast_one]
      constructor <;> nlinarith [ha.1, ha.2, a.1, a.2, b.1, b.2]
  intro v hv
  obtain ⟨j, hj, rfl⟩ := List.mem_map.1 hv
  have := List.mem_range.1 hj
  exact key j (by omega)

end Exact

/-- In real arithmetic the smoothing factor is in [0,1] for every critical period above 4. -/
theorem rmf_alpha_real (c : ℝ) (hc : 4 < c) : 0 ≤ rmfAlpha c ∧ rmfAlpha c ≤ 1 := by
  have hpi := Real.pi_pos
  have e : rmfAlpha c = (Real.cos (2 * Real.pi / c) + Real.sin (2 * Real.pi / c) - 1) / Real.cos (2 * Real.pi / c) := by
    simp [rmfAlpha, CMath.cos, CMath.sin, CMath.acos]
  have h0 : 0 < 2 * Real.pi / c := by positivity
  have h1 : 2 * Real.pi / c < Real.pi / 2 := by
    rw [div_lt_div_iff₀ (by linarith) (by norm_num)]
    nlinarith
  have hcos : 0 < Real.cos (2 * Real.pi / c) := Real.cos_pos_of_mem_Ioo ⟨by linarith, h1⟩
  have hsin : 0 ≤ Real.sin (2 * Real.pi / c) := Real.sin_nonneg_of_nonneg_of_le_pi h0.le (by linarith)
  have hs1 := Real.sin_le_one (2 * Real.pi / c)
  have hsq := Real.sin_sq_add_cos_sq (2 * Real.pi / c)
  rw [e]
  refine ⟨div_nonneg ?_ hcos.le, (div_le_one hcos).2 (by linarith)⟩
  nlinarith [mul_nonneg hsin hcos.le]

/-- With a critical period above 4 rmf stays between bounds of the prices. -/
theorem rmf_bounds_real (o : Nat → ℝ) (k : Nat) (hc : toInt (o 1) = .ok ((2 * k + 1 : Nat) : Int)) (h0 : 4 < o 0) (lo hi : ℝ)
    (xs out : List ℝ) (hx : ∀ v ∈ xs, lo ≤ v ∧ v ≤ hi) (h : rmfBatch o xs = .ok (.okay, out)) : ∀ v ∈ out, lo ≤ v ∧ v ≤ hi :=
  rmf_bounds_partial o k hc (by linarith) (rmf_alpha_real _ h0) lo hi xs out hx h

/-! ### Concrete cases -/

section Examples

def hw : List ℚ := [1000, 2000, 3000, 4000, 5000, 6000, 7000, 8000]
example : toInt (opts [7] 0 : ℚ) = .ok (7 : Nat) := by decide +kernel
example : hwmaBatch (opts [7]) hw = .ok (.okay, [6593, 7593]) := by decide +kernel
example : (hwma (R := ℚ)).session (opts [7]) [hw.take 3, hw.drop 3] = .ok (.okay, 2, [6593, 7593]) := by decide +kernel
example : hwmaBatch (opts [6]) hw = .error .badPtr := by decide +kernel
example : toInt (opts [10, 3] 1 : ℚ) = .ok ((2 * 1 + 1 : Nat) : Int) ∧ (1 : ℚ) ≤ opts [10, 3] 0 := by decide +kernel
example : rmfBatch (opts [10, 3]) ([5, 1, 4, 2, 9, 9] : List ℚ) = .ok (.okay, [4, 4, 4, 4]) := by decide +kernel
example : IsMedian ([5, 1, 4] : List ℚ) 4 := by unfold IsMedian; decide +kernel

end Examples
end Verif
