/-
C30: trima, hma, kst.
-/
import Verif.Proof.WeightedField
import Verif.Props.Sum
import Verif.Core.RatInst
import Verif.Core.RealInst

namespace Verif
open Spec Finset
set_option linter.unusedSectionVars false
set_option linter.unusedSimpArgs false

section Any
variable {R : Type} [Num R]

/-! ### Any arithmetic: contract, refusal, failures -/

/-- Partial: for longer periods the weight total overflows `int` (`trima_overflow`). -/
theorem trima_contract_partial (o : Nat → R) (p : Nat) (hc : toInt (o 0) = .ok (p : Int)) (hp : 1 ≤ p)
    (hb : ((p / 2 : Nat) + 1) * ((p / 2 : Nat) + 1) ≤ 2147483647) : Contract trimaStart trimaBatch o (p - 1) := by
  have hst : trimaStart o = .ok ((p - 1 : Nat) : Int) := by simp only [trimaStart, hc, bind_ok, startM1_ok hc hp]
  by_cases h : 3 ≤ p
  · refine (trima_run o p hc h ?_).contract hst
    unfold triDen; split
    · exact hb
    · exact (Nat.mul_le_mul_left _ (by omega)).trans hb
  · have hr : Computes trimaBatch o (p - 1) fun x j => slide x p (j + p) * (c! 1 / ((p : Int) : R)) := by
      intro x N
      have := smaBatch_run o p hc hp x N
      unfold trimaBatch
      rw [hc, bind_ok, if_neg (by omega), hst, bind_ok, length_pre]
      split
      · rename_i h; simp [show N - (p - 1) = 0 by omega]
      rw [if_pos (by omega), this]
    exact hr.contract hst
theorem trima_refuses (o : Nat → R) (p : Int) (hc : toInt (o 0) = .ok p) (hp : p < 1) : Refuses trimaBatch o := by
  intro xs; simp [trimaBatch, hc, hp]
/-- For long periods the weight total overflows as soon as there is enough input. -/
theorem trima_overflow (o : Nat → R) (p : Nat) (hc : toInt (o 0) = .ok (p : Int)) (hp : 3 ≤ p)
    (hb : 2147483647 < (p / 2 + 1) * (p / 2)) (xs : List R) (hN : p ≤ xs.length) : trimaBatch o xs = .error .intRange := by
  have eh : Int.tdiv (p : Int) 2 = ((p / 2 : Nat) : Int) := by
    rw [Int.tdiv_eq_ediv_of_nonneg (by omega)]; rfl
  have b1 : (2147483647 : Int) < ((p / 2 : Nat) + 1) * (p / 2 : Nat) := by exact_mod_cast hb
  have b2 : (2147483647 : Int) < ((p / 2 : Nat) + 1) * ((p / 2 : Nat) + 1) := by
    have : (p / 2 + 1) * (p / 2) ≤ (p / 2 + 1) * (p / 2 + 1) := Nat.mul_le_mul_left _ (by omega)
    exact_mod_cast hb.trans_le this
  have h1 := startM1_ok hc (show 1 ≤ p by omega)
  unfold trimaBatch
  rw [hc, bind_ok, if_neg (by omega), trimaStart, hc, bind_ok, h1, bind_ok, if_neg (by omega), if_neg (by omega)]
  simp only [eh]
  refine bind_err ?_
  unfold i32
  split_ifs with h <;> first | rfl | omega

/-- Partial: period 1 reads past the input (`hma_violates`); for long periods the weight total overflows
(`hma_overflow`). `s` is the truncated square root of the period as the machine computes it. -/
theorem hma_contract_partial (o : Nat → R) (p s : Nat) (hc : toInt (o 0) = .ok (p : Int))
    (hs : toInt (CMath.sqrt ((p : Int) : R)) = .ok (s : Int)) (hp : 2 ≤ p) (hs1 : 1 ≤ s) (hsp : s ≤ p)
    (hb : p * (p + 1) ≤ 2147483647) : Contract hmaStart hmaBatch o (p + s - 2) := by
  refine (hma_run o p s hc hs hp hs1 hsp hb).contract ?_
  have hpb : p ≤ 65536 := by by_contra h; have : 65537 * 65538 ≤ p * (p + 1) := Nat.mul_le_mul (by omega) (by omega); omega
  rw [hmaStart, hc, bind_ok, hs, bind_ok, if_pos (by omega), i32_ok _ (by omega) (by omega)]; congr 1; omega
theorem hma_refuses (o : Nat → R) (p : Int) (hc : toInt (o 0) = .ok p) (hp : p < 1) : Refuses hmaBatch o := by
  intro xs; simp [hmaBatch, hc, hp]
/-- hma accepts period 1 and then reads one value past the end of any nonempty input. -/
theorem hma_violates (o : Nat → R) (hc : toInt (o 0) = .ok 1) (hs : toInt (CMath.sqrt ((1 : Int) : R)) = .ok 1)
    (xs : List R) (hN : xs ≠ []) : hmaBatch o xs = .error .oobRead := by
  obtain ⟨x, hx⟩ := exists_pre xs
  generalize xs.length = N at hx
  subst hx
  have hN1 : 1 ≤ N := by
    rcases N with _ | N
    · simp [pre] at hN
    · omega
  unfold hmaBatch
  rw [hc, bind_ok, if_neg (by omega), hmaStart, hc, bind_ok, hs, bind_ok, if_pos (by omega), i32_ok _ (by omega) (by omega), bind_ok,
    length_pre, if_neg (by omega), show Int.tdiv 1 2 = ((0 : Nat) : Int) by rfl]
  have t1 := triangle_ok 1 (by omega)
  rw [show ((1 : Nat) : Int) = 1 by rfl] at t1
  rw [bind_ok, t1, bind_ok, triangle_ok 0 (by omega), bind_ok, bind_ok]
  simp only []
  rw [forUp_empty (by omega), bind_ok]
  have hq : ∀ v w, (⟨1, 0, 0, c! 0, [v]⟩ : TiBuf R).qpush w = .ok ⟨1, 0, 0, c! 0, [some w]⟩ := fun _ _ => rfl
  have hg : ∀ w, (⟨1, 0, 0, c! 0, [some w]⟩ : TiBuf R).get 1 = .ok w := fun _ => rfl
  refine bind_err (forUp_inv_err (fun i t => (∃ v, t.2.2.2.1 = ⟨1, 0, 0, c! 0, [v]⟩) ∧ t.2.2.2.2.length = i) 0 (N - 1) rfl
    ⟨⟨none, rfl⟩, rfl⟩ (by omega) (by omega) ?_ ?_)
  · rintro i ⟨a, b, c, buff, out⟩ _ hi ⟨⟨v, hv⟩, hout⟩
    simp only at hv hout
    subst hv
    simp only []
    rw [rd_pre_nat _ _ _ (by omega), bind_ok]
    rw [hq, bind_ok, if_pos (by omega), wr_ok _ _ _ (by omega), bind_ok, hg, bind_ok]
    simp only [pure_eq, bind_ok]
    rw [rd_at i (by omega) (by omega), bind_ok, rd_at (i + 1) (by omega) (by omega), bind_ok]
    exact ⟨_, rfl, ⟨_, rfl⟩, by simp [hout]⟩
  · rintro ⟨a, b, c, buff, out⟩ ⟨⟨v, hv⟩, hout⟩
    simp only at hv hout
    subst hv
    simp only []
    rw [rd_pre_nat _ _ _ (by omega), bind_ok]
    rw [hq, bind_ok, if_pos (by omega), wr_ok _ _ _ (by omega), bind_ok, hg, bind_ok]
    simp only [pure_eq, bind_ok]
    rw [rd_at (N - 1) (by omega) (by omega), bind_ok, rd_oob _ _ (by rw [length_pre]; omega)]
    rfl
/-- For long periods the weight total overflows as soon as there is enough input. -/
theorem hma_overflow (o : Nat → R) (p s : Nat) (hc : toInt (o 0) = .ok (p : Int))
    (hs : toInt (CMath.sqrt ((p : Int) : R)) = .ok (s : Int)) (hp : 1 ≤ p)
    (hb : 2147483647 < p * (p + 1)) (xs : List R) (hN : p + s - 2 < xs.length) : hmaBatch o xs = .error .intRange := by
  have hb' : (2147483647 : Int) < (p : Int) * (p + 1) := by exact_mod_cast hb
  have ht : triangle (p : Int) = .error .intRange := by
    unfold triangle i32
    split_ifs with h
    · rw [bind_ok]; split_ifs with h'
      · omega
      · rfl
    · rfl
  unfold hmaBatch
  rw [hc, bind_ok, if_neg (by omega), hmaStart, hc, bind_ok, hs, bind_ok, if_pos (by omega)]
  by_cases h : (p : Int) + s - 2 ≤ 2147483647 ∧ -2147483648 ≤ (p : Int) + s - 2
  · rw [i32_ok _ h.2 h.1, bind_ok, if_neg (by omega), bind_ok, ht]; rfl
  · rw [i32, if_neg (by omega)]; rfl

/-- Partial: nothing stops kst from running on an input no longer than its start index (`kst_violates`). -/
theorem kst_runs_partial (o : Nat → R) (r1 r2 r3 r4 m1 m2 m3 m4 : Nat)
    (h1 : toInt (o 0) = .ok (r1 : Int)) (h2 : toInt (o 1) = .ok (r2 : Int)) (h3 : toInt (o 2) = .ok (r3 : Int))
    (h4 : toInt (o 3) = .ok (r4 : Int)) (h5 : toInt (o 4) = .ok (m1 : Int)) (h6 : toInt (o 5) = .ok (m2 : Int))
    (h7 : toInt (o 6) = .ok (m3 : Int)) (h8 : toInt (o 7) = .ok (m4 : Int)) (hr : r1 < r2 ∧ r2 < r3 ∧ r3 < r4)
    (hn : ∀ k, k < 8 → ¬ o k < c! 1) (hb : r4 < 2147483647) (hm : ∀ m ∈ [m1, m2, m3, m4], m < 2147483647)
    (xs : List R) (hN : r4 < xs.length) :
    kstStart o = .ok (r4 : Int) ∧ ∃ out, kstBatch o xs = .ok (.okay, out) ∧ out.length = xs.length - r4 := by
  obtain ⟨x, hx⟩ := exists_pre xs
  generalize xs.length = N at *
  subst hx
  refine ⟨h4, _, kst_run o r1 r2 r3 r4 m1 m2 m3 m4 h1 h2 h3 h4 h5 h6 h7 h8 hr ?_ (by omega) ?_ x _ hN, by simp⟩
  · rintro (h | h | h | h | h | h | h | h)
    exacts [hn 0 (by omega) h, hn 1 (by omega) h, hn 2 (by omega) h, hn 3 (by omega) h, hn 4 (by omega) h, hn 5 (by omega) h,
      hn 6 (by omega) h, hn 7 (by omega) h]
  · simp at hm; omega
/-- kst on an input no longer than its start index reads past the end, instead of returning no outputs. -/
theorem kst_violates (o : Nat → R) (r1 r2 r3 r4 m1 m2 m3 m4 : Nat)
    (h1 : toInt (o 0) = .ok (r1 : Int)) (h2 : toInt (o 1) = .ok (r2 : Int)) (h3 : toInt (o 2) = .ok (r3 : Int))
    (h4 : toInt (o 3) = .ok (r4 : Int)) (h5 : toInt (o 4) = .ok (m1 : Int)) (h6 : toInt (o 5) = .ok (m2 : Int))
    (h7 : toInt (o 6) = .ok (m3 : Int)) (h8 : toInt (o 7) = .ok (m4 : Int)) (hr : r1 < r2 ∧ r2 < r3 ∧ r3 < r4)
    (hn : ∀ k, k < 8 → ¬ o k < c! 1) (hm : ∀ m ∈ [m1, m2, m3, m4], m < 2147483647)
    (xs : List R) (hN : xs.length ≤ r4) : kstBatch o xs = .error .oobRead := by
  simp at hm
  have e : ∀ r : Nat, xs.length ≤ r → kstRoc xs r r = .error .oobRead := fun r h => by
    rw [kstRoc, rd_oob _ _ (by omega)]; rfl
  have k : ∀ r : Nat, (∃ v, kstRoc xs r r = .ok v) ∨ kstRoc xs r r = .error .oobRead := fun r => by
    by_cases h : xs.length ≤ r
    · exact .inr (e r h)
    · obtain ⟨x, hx⟩ := exists_pre xs
      have := kstRoc_ok x xs.length r 0 (by omega)
      rw [Nat.zero_add, ← hx] at this
      exact .inl ⟨_, this⟩
  unfold kstBatch
  simp only [h1, h2, h3, h4, h5, h6, h7, h8, bind_ok, kstStart]
  rw [if_neg (by omega), if_neg, kstPer_ok m1 (by omega), bind_ok, kstPer_ok m2 (by omega), bind_ok, kstPer_ok m3 (by omega), bind_ok,
    kstPer_ok m4 (by omega), bind_ok]
  · rcases k r1 with ⟨v, h⟩ | h <;> rw [h]
    · rw [bind_ok]
      rcases k r2 with ⟨v, h⟩ | h <;> rw [h]
      · rw [bind_ok]
        rcases k r3 with ⟨v, h⟩ | h <;> rw [h]
        · rw [bind_ok, e r4 hN]; rfl
        · rfl
      · rfl
    · rfl
  · rintro (h | h | h | h | h | h | h | h)
    exacts [hn 0 (by omega) h, hn 1 (by omega) h, hn 2 (by omega) h, hn 3 (by omega) h, hn 4 (by omega) h, hn 5 (by omega) h,
      hn 6 (by omega) h, hn 7 (by omega) h]
theorem kst_refuses (o : Nat → R) (n : Nat → Int) (hc : ∀ k, k < 8 → toInt (o k) = .ok (n k))
    (hbad : ¬ (n 0 < n 1 ∧ n 1 < n 2 ∧ n 2 < n 3) ∨ ∃ k, k < 8 ∧ o k < c! 1) : Refuses kstBatch o := by
  intro xs
  unfold kstBatch
  simp only [hc 0 (by omega), hc 1 (by omega), hc 2 (by omega), hc 3 (by omega), hc 4 (by omega), hc 5 (by omega), hc 6 (by omega),
    hc 7 (by omega), bind_ok]
  by_cases h : n 0 < n 1 ∧ n 1 < n 2 ∧ n 2 < n 3
  · rw [if_neg (by tauto)]
    rcases hbad with h' | ⟨k, hk, h'⟩
    · exact absurd h h'
    · rw [if_pos]
      · rfl
      · rcases k with _ | _ | _ | _ | _ | _ | _ | _ | k <;> tauto
  · rw [if_pos h]; rfl

end Any

section Field
variable {R : Type} [Field R] [LinearOrder R] [IsStrictOrderedRing R] [CMath R]

/-! ### Exact arithmetic: the documented averages -/

/-- trima: the mean of the window under the weights 1, 2, …, 2, 1. Partial as `trima_contract_partial`. -/
theorem trima_value_partial (o : Nat → R) (p : Nat) (hc : toInt (o 0) = .ok (p : Int)) (hp : 1 ≤ p)
    (hb : ((p / 2 : Nat) + 1) * ((p / 2 : Nat) + 1) ≤ 2147483647) : Computes trimaBatch o (p - 1) (trima p) := by
  by_cases h : 3 ≤ p
  · refine (trima_run o p hc h ?_).congr (trimaVal_eq p h)
    unfold triDen; split
    · exact hb
    · exact (Nat.mul_le_mul_left _ (by omega)).trans hb
  · intro x N
    have := sma_value o p hc hp x N
    have hst : trimaStart o = .ok ((p - 1 : Nat) : Int) := by simp only [trimaStart, hc, bind_ok, startM1_ok hc hp]
    unfold trimaBatch
    rw [hc, bind_ok, if_neg (by omega), hst, bind_ok, length_pre]
    split
    · rename_i h; simp [show N - (p - 1) = 0 by omega]
    rw [if_pos (by omega), this]
    congr 3
    funext j; exact trima_short p hp (by omega) x j
/-- Every value of trima lies between any bounds of its window. -/
theorem trima_bounds_partial (o : Nat → R) (p : Nat) (hc : toInt (o 0) = .ok (p : Int)) (hp : 1 ≤ p)
    (hb : ((p / 2 : Nat) + 1) * ((p / 2 : Nat) + 1) ≤ 2147483647) (x : Nat → R) (N : Nat) :
    ∃ y, trimaBatch o (pre x N) = .ok (.okay, pre y (N - (p - 1))) ∧
      ∀ j lo hi, (∀ k, j ≤ k → k < j + p → lo ≤ x k ∧ x k ≤ hi) → lo ≤ y j ∧ y j ≤ hi := by
  refine ⟨_, trima_value_partial o p hc hp hb x N, fun j lo hi h => ?_⟩
  refine wmean_bounds (fun k => (triWeight p k : R)) (fun k => x (j + k)) lo hi (fun k _ => by positivity) ?_
    (fun k hk => h _ (by omega) (by omega))
  refine sum_pos (fun k hk => ?_) ⟨0, mem_range.2 (by omega)⟩
  have := mem_range.1 hk
  exact_mod_cast (show 0 < triWeight p k by unfold triWeight; omega)

/-- hma: with `s` the integer square root, the `s`-bar weighted mean of twice the half-period weighted mean less
the full-period one. Partial as `hma_contract_partial`. -/
theorem hma_value_partial (o : Nat → R) (p s : Nat) (hc : toInt (o 0) = .ok (p : Int))
    (hs : toInt (CMath.sqrt ((p : Int) : R)) = .ok (s : Int)) (hp : 2 ≤ p) (hs1 : 1 ≤ s) (hsp : s ≤ p)
    (hb : p * (p + 1) ≤ 2147483647) : Computes hmaBatch o (p + s - 2) (fun x =>
      wma s fun m => 2 * wma (p / 2) x (m + (p - p / 2)) - wma p x m) :=
  (hma_run o p s hc hs hp hs1 hsp hb).congr fun x j => hmaVal_eq p s hp hs1 x j

/-- kst: the documented mixture of smoothed changes, and its 9-bar exponential average as signal. Partial: inputs
longer than the start index only (`kst_violates`). -/
theorem kst_value_partial (o : Nat → R) (r1 r2 r3 r4 m1 m2 m3 m4 : Nat)
    (h1 : toInt (o 0) = .ok (r1 : Int)) (h2 : toInt (o 1) = .ok (r2 : Int)) (h3 : toInt (o 2) = .ok (r3 : Int))
    (h4 : toInt (o 3) = .ok (r4 : Int)) (h5 : toInt (o 4) = .ok (m1 : Int)) (h6 : toInt (o 5) = .ok (m2 : Int))
    (h7 : toInt (o 6) = .ok (m3 : Int)) (h8 : toInt (o 7) = .ok (m4 : Int)) (hr : r1 < r2 ∧ r2 < r3 ∧ r3 < r4)
    (hn : ∀ k, k < 8 → 1 ≤ o k) (hb : r4 < 2147483647) (hm : ∀ m ∈ [m1, m2, m3, m4], m < 2147483647)
    (x : Nat → R) (N : Nat) (hN : r4 < N) : kstBatch o (pre x N) = .ok (.okay, pre (fun j =>
      (⟨kst r1 r2 r3 r4 m1 m2 m3 m4 x j, ema (1 / 5) (kst r1 r2 r3 r4 m1 m2 m3 m4 x) j⟩ : Kst R)) (N - r4)) := by
  simp at hm
  rw [kst_run o r1 r2 r3 r4 m1 m2 m3 m4 h1 h2 h3 h4 h5 h6 h7 h8 hr ?_ (by omega) (by omega) x N hN]
  · have e : kstVal r1 r2 r3 r4 m1 m2 m3 m4 x = kst r1 r2 r3 r4 m1 m2 m3 m4 x := funext (kstVal_eq r1 r2 r3 r4 m1 m2 m3 m4 hr x)
    have e5 : (c! 2 / (c! 9 + c! 1) : R) = 1 / 5 := by push_cast; norm_num
    rw [e, e5]
    simp only [emaRec_eq]
  · have hn' : ∀ k, k < 8 → ¬ o k < c! 1 := fun k hk h => by have := hn k hk; simp at h; linarith
    rintro (h | h | h | h | h | h | h | h)
    exacts [hn' 0 (by omega) h, hn' 1 (by omega) h, hn' 2 (by omega) h, hn' 3 (by omega) h, hn' 4 (by omega) h, hn' 5 (by omega) h,
      hn' 6 (by omega) h, hn' 7 (by omega) h]

end Field

/-! ### Concrete cases -/

example : trimaBatch (opts [4]) [1, 2, 3, 6, 0] = .ok (.okay, [17/6, 20/6]) := by decide +kernel
example : trimaBatch (opts [2]) [1, 2, 3] = .ok (.okay, [3/2, 5/2]) := by decide +kernel
example : hmaBatch (opts [4]) [1, 2, 3, 6, 0] = .ok (.okay, [3]) := by decide +kernel
example : hmaBatch (opts [1]) [1, 2] = .error .oobRead := by decide +kernel
example : kstBatch (opts [1, 2, 3, 4, 1, 1, 1, 1]) [1, 2, 4, 8, 16, 32] = .ok (.okay, [⟨44/5, 44/5⟩, ⟨44/5, 44/5⟩]) := by decide +kernel
example : kstBatch (opts [1, 2, 3, 4, 1, 1, 1, 1]) [1, 2, 4, 8] = .error .oobRead := by decide +kernel
/-- Over `ℝ` the hypothesis of the hma theorems holds with the integer square root. -/
example (p : Nat) (hp : 2 ≤ p) (hb : p * (p + 1) ≤ 2147483647) :
    toInt (CMath.sqrt ((p : Int) : ℝ)) = .ok ((Nat.sqrt p : Nat) : Int) ∧ 1 ≤ Nat.sqrt p ∧ Nat.sqrt p ≤ p := by
  have hle : Nat.sqrt p ≤ p := Nat.sqrt_le_self p
  have hpb : p ≤ 65536 := by by_contra h; have : 65537 * 65538 ≤ p * (p + 1) := Nat.mul_le_mul (by omega) (by omega); omega
  refine ⟨?_, Nat.sqrt_pos.2 (by omega), hle⟩
  have e : CMath.trunc (CMath.sqrt ((p : Int) : ℝ)) = ((Nat.sqrt p : Nat) : Int) := by
    have h0 : (0 : ℝ) ≤ Real.sqrt ((p : Int) : ℝ) := Real.sqrt_nonneg _
    have h1 : CMath.trunc (CMath.sqrt ((p : Int) : ℝ)) = ⌊Real.sqrt ((p : Int) : ℝ)⌋ := if_pos h0
    rw [h1, Int.cast_natCast, Real.floor_real_sqrt_eq_nat_sqrt]
  simp only [toInt, e]
  exact i32_ok _ (by omega) (by omega)

end Verif
