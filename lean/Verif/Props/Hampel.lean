/-
C59-C61 and C03, C32-C36 for hf, hfema and hfsma.
-/
import Verif.Proof.Hampel
import Verif.Proof.StreamErr
import Verif.Proof.EmaField
import Verif.Props.Rank
import Verif.Props.Sum
import Verif.Spec.Hampel
import Verif.Core.RatInst

set_option linter.unusedSectionVars false
set_option linter.unusedSimpArgs false
set_option linter.unusedVariables false

namespace Verif
open Spec Finset

section Any
variable {R : Type} [Num R]

theorem hf_refuses (o : Nat → R) (k : Int) (hc : toInt (o 0) = .ok k) (h : k < 1 ∨ o 1 < c! 0) : Refuses hfBatch o := by
  intro xs
  by_cases hk : k < 1
  · simp [hfBatch, hc, hk]
  · simp [hfBatch, hc, hk, h.resolve_left hk]
theorem hf_stream_refuses (o : Nat → R) (k : Int) (hc : toInt (o 0) = .ok k) (h : k < 1 ∨ o 1 < c! 0) : (hf (R := R)).NewRefuses o := by
  by_cases hk : k < 1
  · simp [Indicator.NewRefuses, hf, hfNew, hc, hk]
  · simp [Indicator.NewRefuses, hf, hfNew, hc, hk, h.resolve_left hk]
theorem hf_chunks (o : Nat → R) : (hf (R := R)).ChunkInvariant o := chunkInvariant_of hfPhases_ordered o
/-- From `k = 2^30` on `2*k` overflows, in the batch call, the stream and the reference. -/
theorem hf_overflow (o : Nat → R) (k : Int) (hc : toInt (o 0) = .ok k) (hk : 1073741824 ≤ k) (ht : ¬ o 1 < c! 0) :
    (∀ xs, hfBatch o xs = .error .intRange) ∧ (hf (R := R)).new o = .error .intRange ∧ ∀ xs, hfRef o xs = .error .intRange := by
  have hs : hfStart o = .error .intRange := by
    unfold hfStart i32; rw [hc, bind_ok, if_neg (by omega)]
  have hk1 : ¬ k < 1 := by omega
  refine ⟨fun xs => ?_, ?_, fun xs => ?_⟩
  · simp [hfBatch, hc, hk1, ht, hs]
  · simp [hf, hfNew, hc, hk1, ht, hs]
  · simp [hfRef, hc, hk1, ht, hs]

theorem hfema_refuses (o : Nat → R) (p k : Int) (h0 : toInt (o 0) = .ok p) (h1 : toInt (o 1) = .ok k) (h : p < 1 ∨ k < 1 ∨ o 2 < c! 0) :
    Refuses hfemaBatch o := by
  intro xs
  have : hfxBad o p k = true := by simpa [hfxBad, or_assoc] using h
  simp [hfemaBatch, h0, h1, this]
theorem hfema_stream_refuses (o : Nat → R) (p k : Int) (h0 : toInt (o 0) = .ok p) (h1 : toInt (o 1) = .ok k)
    (h : p < 1 ∨ k < 1 ∨ o 2 < c! 0) : (hfema (R := R)).NewRefuses o := by
  have : hfxBad o p k = true := by simpa [hfxBad, or_assoc] using h
  simp [Indicator.NewRefuses, hfema, hfemaNew, h0, h1, this]
theorem hfema_chunks (o : Nat → R) : (hfema (R := R)).ChunkInvariant o := chunkInvariant_of hfemaPhases_ordered o
/-- From `k = 2^30` on `2*k` overflows in hfema. -/
theorem hfema_overflow (o : Nat → R) (p k : Int) (h0 : toInt (o 0) = .ok p) (h1 : toInt (o 1) = .ok k) (hp : 1 ≤ p) (hk : 1073741824 ≤ k)
    (ht : ¬ o 2 < c! 0) : (∀ xs, hfemaBatch o xs = .error .intRange) ∧ (hfema (R := R)).new o = .error .intRange := by
  have hs : hfemaStart o = .error .intRange := by
    unfold hfemaStart i32; rw [h1, bind_ok, if_neg (by omega)]
  have hb : hfxBad o p k = false := by
    simp only [hfxBad, decide_eq_false (show ¬ p < 1 by omega), decide_eq_false (show ¬ k < 1 by omega), decide_eq_false ht]; rfl
  refine ⟨fun xs => ?_, ?_⟩
  · simp [hfemaBatch, h0, h1, hb, hs]
  · simp [hfema, hfemaNew, h0, h1, hb, hs]

theorem hfsma_refuses (o : Nat → R) (p k : Int) (h0 : toInt (o 0) = .ok p) (h1 : toInt (o 1) = .ok k) (h : p < 1 ∨ k < 1 ∨ o 2 < c! 0) :
    Refuses hfsmaBatch o := by
  intro xs
  have : hfxBad o p k = true := by simpa [hfxBad, or_assoc] using h
  simp [hfsmaBatch, h0, h1, this]
theorem hfsma_stream_refuses (o : Nat → R) (p k : Int) (h0 : toInt (o 0) = .ok p) (h1 : toInt (o 1) = .ok k)
    (h : p < 1 ∨ k < 1 ∨ o 2 < c! 0) : (hfsma (R := R)).NewRefuses o := by
  have : hfxBad o p k = true := by simpa [hfxBad, or_assoc] using h
  simp [Indicator.NewRefuses, hfsma, hfsmaNew, h0, h1, this]
theorem hfsma_chunks (o : Nat → R) : (hfsma (R := R)).ChunkInvariant o := chunkInvariant_of hfsmaPhases_ordered o
/-- The warm-up `sma_period-1 + 2*k` must fit in an `int`. -/
theorem hfsma_overflow (o : Nat → R) (p k : Int) (h0 : toInt (o 0) = .ok p) (h1 : toInt (o 1) = .ok k) (hp : 1 ≤ p) (hk : 1 ≤ k)
    (hb : 2147483647 < p - 1 + 2 * k) (ht : ¬ o 2 < c! 0) :
    (∀ xs, hfsmaBatch o xs = .error .intRange) ∧ (hfsma (R := R)).new o = .error .intRange := by
  have hr := toInt_range h0
  have hbad : hfxBad o p k = false := by
    simp only [hfxBad, decide_eq_false (show ¬ p < 1 by omega), decide_eq_false (show ¬ k < 1 by omega), decide_eq_false ht]; rfl
  have hs : hfsmaStart o = .error .intRange := by
    unfold hfsmaStart
    rw [h0, bind_ok, h1, bind_ok, i32_ok _ (by omega) (by omega), bind_ok]
    by_cases h2 : 2 * k ≤ 2147483647
    · rw [i32_ok _ (by omega) (by omega), bind_ok]; unfold i32; rw [if_neg (by omega)]
    · unfold i32; rw [if_neg (by omega)]; rfl
  refine ⟨fun xs => ?_, ?_⟩
  · unfold hfsmaBatch
    rw [h0, bind_ok, h1, bind_ok, hbad, if_neg (by simp)]
    by_cases h2 : 2 * k ≤ 2147483647
    · rw [i32_ok (2 * k) (by omega) (by omega), bind_ok, i32_ok _ (by omega) (by omega), bind_ok, hs]; rfl
    · have : i32 (2 * k) = .error .intRange := by unfold i32; rw [if_neg (by omega)]
      rw [this]; rfl
  · simp [hfsma, hfsmaNew, h0, h1, hbad, hs]

/-- The stream keeps `2k+1` prices but subtracts the one `sma_period-1` bars back: with a longer average it fails an
assertion as soon as the first mean is complete. -/
theorem hfsma_stream_violates (o : Nat → R) (p k : Nat) (h0 : toInt (o 0) = .ok (p : Int)) (h1 : toInt (o 1) = .ok (k : Int)) (hk : 1 ≤ k)
    (hpk : 2 * k + 1 < p) (hb : p - 1 + 2 * k ≤ 2147483647) (ht : ¬ o 2 < c! 0) (x : Nat → R) (N : Nat) (hN : p ≤ N)
    (chunks : List (List R)) (hx : chunks.flatten = pre x N) : (hfsma (R := R)).session o chunks = .error .assertFail := by
  have hbad : hfxBad o (p : Int) (k : Int) = false := by
    simp only [hfxBad, decide_eq_false (show ¬ (p : Int) < 1 by omega), decide_eq_false (show ¬ (k : Int) < 1 by omega), decide_eq_false ht]; rfl
  have hs : hfsmaStart o = .ok ((p - 1 + 2 * k : Nat) : Int) := by
    unfold hfsmaStart
    rw [h0, bind_ok, h1, bind_ok, i32_ok _ (by omega) (by omega), bind_ok, i32_ok _ (by omega) (by omega), bind_ok, i32_ok _ (by omega) (by omega)]
    congr 1; omega
  refine session_err (I := hfsma) (k := (((p : Int), (k : Int), o 2) : Int × Int × R)) (p := -((p - 1 + 2 * k : Nat) : Int))
    (s0 := (⟨c! 0, Ring.after x (2 * k + 1) 0, Ring.after (fun _ => c! 0) (2 * k + 1) 0, [], List.replicate (2 * k + 1) (c! 0)⟩ : HfsmaS R)) ?_
    (hfsmaPhases_ordered _) x
    (fun n => (⟨slideS x p n, Ring.after x (2 * k + 1) n, Ring.after (fun _ => c! 0) (2 * k + 1) n, [], List.replicate (2 * k + 1) (c! 0)⟩ : HfsmaS R))
    (fun _ => []) .assertFail (p - 1) rfl (fun n hn => ?_) ?_ N chunks hx (by omega)
  · simp only [hfsma, hfsmaNew]
    rw [h0, bind_ok, h1, bind_ok, hbad, if_neg (by simp), hs, bind_ok, i32_ok (2 * (k : Int)) (by omega) (by omega), bind_ok,
      i32_ok _ (by omega) (by omega), bind_ok, show 2 * (k : Int) + 1 = ((2 * k + 1 : Nat) : Int) by omega,
      Ring.make_after (fun _ => c! 0) _ (by omega), bind_ok, bind_ok]
    rfl
  · simp only [hfsma, barStep, hfsmaPhases, List.find?]
    rw [decide_eq_true (by omega)]
    simp only [Ring.after_set x (2 * k + 1) (by omega) n (x n) rfl, bind_ok, pure_eq, Ring.now_step]
    rw [Ring.after_skip (fun _ => c! 0) (2 * k + 1) n (fun j hj => rfl), slideS, if_pos hn]
  · simp only [hfsma, barStep, hfsmaPhases, List.find?]
    rw [decide_eq_false (by omega), decide_eq_true (by omega)]
    simp only [Ring.after_set x (2 * k + 1) (by omega) (p - 1) (x (p - 1)) rfl, bind_ok]
    have hset : ∀ v, ∃ r, (Ring.after (fun _ => (c! 0 : R)) (2 * k + 1) (p - 1)).set v = .ok r := by
      intro v
      have key : ∀ n, n ≤ p - 1 → Ring.after (fun _ => (c! 0 : R)) (2 * k + 1) n = Ring.after (fun n => if n = p - 1 then v else c! 0) (2 * k + 1) n := by
        intro n
        induction n with
        | zero => intro _; rfl
        | succ n ih =>
          intro hn
          rw [← Ring.now_step, ← Ring.now_step, Ring.now, Ring.now, ih (by omega), if_neg (by omega)]
      rw [key _ le_rfl]
      exact ⟨_, Ring.after_set _ _ (by omega) _ v (by simp)⟩
    obtain ⟨r, hr⟩ := hset ((slideS x p (p - 1) + x (p - 1)) / (((p : Int)) : R))
    rw [hr, bind_ok, Ring.now_get_err x (2 * k + 1) (by omega) (p - 1) _ (Or.inr (by omega))]
    rfl

end Any

section Exact
variable {R : Type} [Field R] [LinearOrder R] [IsStrictOrderedRing R] [CMath R]

/-! ### Contracts -/

/-- Partial: `2k+1` must fit in an `int` (`hf_overflow`). -/
theorem hf_contract_partial (o : Nat → R) (k : Nat) (hc : toInt (o 0) = .ok (k : Int)) (hk : 1 ≤ k) (hb : 2 * k + 1 ≤ 2147483647) (ht : 0 ≤ o 1) :
    Contract hfStart hfBatch o (2 * k) := (hf_run o k hc hk hb ht).contract (hfStart_ok hc hb)
theorem hf_stream_eq_batch_partial (o : Nat → R) (k : Nat) (hc : toInt (o 0) = .ok (k : Int)) (hk : 1 ≤ k) (hb : 2 * k + 1 ≤ 2147483647)
    (ht : 0 ≤ o 1) : (hf (R := R)).StreamEqBatch o (2 * k) := by
  have : Inhabited R := ⟨0⟩
  exact streamEqBatch_of (hf_run o k hc hk hb ht) (hf_stream_run o k hc hk hb ht)
theorem hf_ref_eq_batch_partial (o : Nat → R) (k : Nat) (hc : toInt (o 0) = .ok (k : Int)) (hk : 1 ≤ k) (hb : 2 * k + 1 ≤ 2147483647)
    (ht : 0 ≤ o 1) (xs : List R) : hfRef o xs = hfBatch o xs := by
  have : Inhabited R := ⟨0⟩
  obtain ⟨x, hx⟩ := exists_pre xs
  rw [hx, hf_run o k hc hk hb ht, hfRef_run o k hc hk hb ht]

/-- Partial: `2k+1` must fit in an `int` (`hfema_overflow`). -/
theorem hfema_contract_partial (o : Nat → R) (p k : Nat) (h0 : toInt (o 0) = .ok (p : Int)) (h1 : toInt (o 1) = .ok (k : Int)) (hp : 1 ≤ p)
    (hk : 1 ≤ k) (hb : 2 * k + 1 ≤ 2147483647) (ht : 0 ≤ o 2) : Contract hfemaStart hfemaBatch o (2 * k) :=
  (hfema_run o p k h0 h1 hp hk hb ht).contract (hfemaStart_ok h1 hb)

/-- Partial: `2k+1` and `p-1+2k` must fit in an `int` (`hfsma_overflow`). -/
theorem hfsma_contract_partial (o : Nat → R) (p k : Nat) (h0 : toInt (o 0) = .ok (p : Int)) (h1 : toInt (o 1) = .ok (k : Int)) (hp : 1 ≤ p)
    (hk : 1 ≤ k) (hb : 2 * k + 1 ≤ 2147483647) (hb2 : p - 1 + 2 * k ≤ 2147483647) (ht : 0 ≤ o 2) :
    Contract hfsmaStart hfsmaBatch o (p - 1 + 2 * k) := (hfsma_run o p k h0 h1 hp hk hb hb2 ht).contract (hfsmaStart_ok h0 h1 hp hb2)
/-- Partial: averages no longer than the window of the filter (`hfsma_stream_violates`). -/
theorem hfsma_stream_eq_batch_partial (o : Nat → R) (p k : Nat) (h0 : toInt (o 0) = .ok (p : Int)) (h1 : toInt (o 1) = .ok (k : Int))
    (hp : 1 ≤ p) (hk : 1 ≤ k) (hb : 2 * k + 1 ≤ 2147483647) (hpk : p ≤ 2 * k + 1) (hb2 : p - 1 + 2 * k ≤ 2147483647) (ht : 0 ≤ o 2) :
    (hfsma (R := R)).StreamEqBatch o (p - 1 + 2 * k) := by
  have : Inhabited R := ⟨0⟩
  exact streamEqBatch_of (hfsma_run o p k h0 h1 hp hk hb hb2 ht) (hfsma_stream_run o p k h0 h1 hp hk hb hpk hb2 ht)

/-! ### Values -/

theorem emaDiv_eq (p : Nat) (d : R) (hd : d = (p : R) + 1) (x : Nat → R) (n : Nat) : emaDiv d x n = ema (emaCoef p) x n := by
  induction n with
  | zero => rfl
  | succ n ih => rw [emaDiv, ih, ema, emaCoef, hd]; push_cast; ring

theorem slideMean_eq (p : Nat) (hp : 1 ≤ p) (x : Nat → R) (m : Nat) : slideMean p x m = winMean p x m := by
  rw [slideMean, slideS_eq x p m hp, winMean]; simp

/-- hfema is the filter of the exponential averages. -/
theorem hfema_value_run (o : Nat → R) (p k : Nat) (h0 : toInt (o 0) = .ok (p : Int)) (h1 : toInt (o 1) = .ok (k : Int)) (hp : 1 ≤ p) (hk : 1 ≤ k)
    (hb : 2 * k + 1 ≤ 2147483647) (ht : 0 ≤ o 2) : Computes hfemaBatch o (2 * k) (fun x => hfxPick k (o 2) (ema (emaCoef p) x)) :=
  (hfema_run o p k h0 h1 hp hk hb ht).congr fun x j => by
    rw [show emaDiv (c! 1 + ((p : Int) : R)) x = ema (emaCoef p) x from funext fun n => emaDiv_eq p _ (by push_cast; ring) x n]
theorem hfema_stream_eq_batch_partial (o : Nat → R) (p k : Nat) (h0 : toInt (o 0) = .ok (p : Int)) (h1 : toInt (o 1) = .ok (k : Int)) (hp : 1 ≤ p)
    (hk : 1 ≤ k) (hb : 2 * k + 1 ≤ 2147483647) (ht : 0 ≤ o 2) : (hfema (R := R)).StreamEqBatch o (2 * k) := by
  have : Inhabited R := ⟨0⟩
  refine streamEqBatch_of (hfema_value_run o p k h0 h1 hp hk hb ht) (StreamComputes.congr (hfema_stream_run o p k h0 h1 hp hk hb ht) fun x j => ?_)
  rw [show emaDiv (((p : Int) : R) + c! 1) x = ema (emaCoef p) x from funext fun n => emaDiv_eq p _ (by push_cast; ring) x n]
theorem hfema_ref_eq_batch_partial (o : Nat → R) (p k : Nat) (h0 : toInt (o 0) = .ok (p : Int)) (h1 : toInt (o 1) = .ok (k : Int)) (hp : 1 ≤ p)
    (hk : 1 ≤ k) (hb : 2 * k + 1 ≤ 2147483647) (ht : 0 ≤ o 2) (xs : List R) : hfemaRef o xs = hfemaBatch o xs := by
  have : Inhabited R := ⟨0⟩
  obtain ⟨x, hx⟩ := exists_pre xs
  rw [hx, hfema_value_run o p k h0 h1 hp hk hb ht, hfemaRef_run o p k h0 h1 hp hk hb ht]
  dsimp only
  rw [show emaRec (emaPer p) x = ema (emaCoef p) x from funext fun n => by rw [emaPer_eq, emaRec_eq]]
theorem hfsma_value_run (o : Nat → R) (p k : Nat) (h0 : toInt (o 0) = .ok (p : Int)) (h1 : toInt (o 1) = .ok (k : Int)) (hp : 1 ≤ p) (hk : 1 ≤ k)
    (hb : 2 * k + 1 ≤ 2147483647) (hb2 : p - 1 + 2 * k ≤ 2147483647) (ht : 0 ≤ o 2) :
    Computes hfsmaBatch o (p - 1 + 2 * k) (fun x => hfxPick k (o 2) (winMean p x)) :=
  (hfsma_run o p k h0 h1 hp hk hb hb2 ht).congr fun x j => by
    rw [show slideMean p x = winMean p x from funext fun n => slideMean_eq p hp x n]
theorem hfsma_ref_eq_batch_partial (o : Nat → R) (p k : Nat) (h0 : toInt (o 0) = .ok (p : Int)) (h1 : toInt (o 1) = .ok (k : Int)) (hp : 1 ≤ p)
    (hk : 1 ≤ k) (hb : 2 * k + 1 ≤ 2147483647) (hb2 : p - 1 + 2 * k ≤ 2147483647) (ht : 0 ≤ o 2) (xs : List R) :
    hfsmaRef o xs = hfsmaBatch o xs := by
  have : Inhabited R := ⟨0⟩
  obtain ⟨x, hx⟩ := exists_pre xs
  rw [hx, hfsma_value_run o p k h0 h1 hp hk hb hb2 ht, hfsmaRef_run o p k h0 h1 hp hk hb hb2 ht _ (sma_value o p h0 hp)]

variable [LawfulAbs R]

theorem madMid_median (k : Nat) (y : Nat → R) (t : Nat) : IsMedian ((seg y t (2 * k + 1)).map fun v => |v - rmfMid k y t|) (madMid k y t) := by
  have h := sorted_median (devsOf k y t) k (rank_sorted _) (devsOf_length k y t)
  have e : (fun v => CMath.fabs (v - rmfMid k y t)) = fun v : R => |v - rmfMid k y t| := funext fun v => LawfulAbs.fabs_eq _
  have hp : (devsOf k y t).Perm ((seg y t (2 * k + 1)).map fun v => |v - rmfMid k y t|) := by
    unfold devsOf
    rw [e]
    exact (rank_perm _).trans ((rank_perm _).map _)
  have := median_perm hp h
  unfold madMid
  simpa using this

theorem hfPick_hampel (k : Nat) (thr : R) (y : Nat → R) (t : Nat) : Hampel thr (seg y t (2 * k + 1)) (y (t + 2 * k)) (hfPick k thr y t) := by
  refine ⟨_, _, rmfMid_median k y t, madMid_median k y t, ?_⟩
  unfold hfPick hampelReach
  rw [LawfulAbs.fabs_eq, Nat.add_comm (2 * k) t]
  norm_num

theorem hfxPick_hampel (k : Nat) (thr : R) (y : Nat → R) (t : Nat) : HampelIncl thr (seg y t (2 * k + 1)) (y (t + k)) (hfxPick k thr y t) := by
  refine ⟨_, _, rmfMid_median k y t, madMid_median k y t, ?_⟩
  unfold hfxPick hampelReach
  rw [LawfulAbs.fabs_eq, Nat.add_comm k t]
  norm_num

/-- The filtered value is determined by the window. -/
theorem hampel_unique {thr : R} {w : List R} {cand y z : R} (hy : Hampel thr w cand y) (hz : Hampel thr w cand z) : y = z := by
  obtain ⟨m, d, h1, h2, rfl⟩ := hy
  obtain ⟨m', d', h3, h4, rfl⟩ := hz
  obtain rfl := median_unique h1 h3
  obtain rfl := median_unique h2 h4
  rfl
theorem hampelIncl_unique {thr : R} {w : List R} {cand y z : R} (hy : HampelIncl thr w cand y) (hz : HampelIncl thr w cand z) : y = z := by
  obtain ⟨m, d, h1, h2, rfl⟩ := hy
  obtain ⟨m', d', h3, h4, rfl⟩ := hz
  obtain rfl := median_unique h1 h3
  obtain rfl := median_unique h2 h4
  rfl

theorem mad_nonneg {w : List R} {m d : R} (h : IsMedian (w.map fun v => |v - m|) d) : 0 ≤ d := by
  obtain ⟨v, _, rfl⟩ := List.mem_map.1 h.1
  exact abs_nonneg _

/-- No output is farther from the median than the threshold allows, and it is always a value of the window. -/
theorem hampel_no_outlier {thr : R} (ht : 0 ≤ thr) {w : List R} {cand y : R} (hc : cand ∈ w) (h : Hampel thr w cand y) :
    y ∈ w ∧ ∀ med mad, IsMedian w med → IsMedian (w.map fun v => |v - med|) mad → |y - med| ≤ thr * (14826 / 10000) * mad := by
  obtain ⟨m, d, h1, h2, rfl⟩ := h
  refine ⟨?_, fun m' d' h3 h4 => ?_⟩
  · split
    · exact hc
    · exact h1.1
  · obtain rfl := median_unique h1 h3
    obtain rfl := median_unique h2 h4
    split
    · rename_i hlt; exact hlt.le
    · rw [sub_self, abs_zero]
      have := mad_nonneg h2
      positivity
theorem hampelIncl_no_outlier {thr : R} (ht : 0 ≤ thr) {w : List R} {cand y : R} (hc : cand ∈ w) (h : HampelIncl thr w cand y) :
    y ∈ w ∧ ∀ med mad, IsMedian w med → IsMedian (w.map fun v => |v - med|) mad → |y - med| ≤ thr * (14826 / 10000) * mad := by
  obtain ⟨m, d, h1, h2, rfl⟩ := h
  refine ⟨?_, fun m' d' h3 h4 => ?_⟩
  · split
    · exact hc
    · exact h1.1
  · obtain rfl := median_unique h1 h3
    obtain rfl := median_unique h2 h4
    split
    · assumption
    · rw [sub_self, abs_zero]
      have := mad_nonneg h2
      positivity

/-- hf: each output is the Hampel filter of the newest price in the window of `2k+1` prices. Partial: see `hf_overflow`. -/
theorem hf_value_partial (o : Nat → R) (k : Nat) (hc : toInt (o 0) = .ok (k : Int)) (hk : 1 ≤ k) (hb : 2 * k + 1 ≤ 2147483647) (ht : 0 ≤ o 1)
    (x : Nat → R) : ∃ v : Nat → R, (∀ N, hfBatch o (pre x N) = .ok (.okay, pre v (N - 2 * k))) ∧
      ∀ t, Hampel (o 1) (seg x t (2 * k + 1)) (x (t + 2 * k)) (v t) :=
  ⟨hfPick k (o 1) x, fun N => hf_run o k hc hk hb ht x N, fun t => hfPick_hampel k (o 1) x t⟩

/-- hfema: the filter of the middle one of `2k+1` exponential averages. Partial: see `hfema_overflow`. -/
theorem hfema_value_partial (o : Nat → R) (p k : Nat) (h0 : toInt (o 0) = .ok (p : Int)) (h1 : toInt (o 1) = .ok (k : Int)) (hp : 1 ≤ p)
    (hk : 1 ≤ k) (hb : 2 * k + 1 ≤ 2147483647) (ht : 0 ≤ o 2) (x : Nat → R) :
    ∃ v : Nat → R, (∀ N, hfemaBatch o (pre x N) = .ok (.okay, pre v (N - 2 * k))) ∧
      ∀ t, HampelIncl (o 2) (seg (ema (emaCoef p) x) t (2 * k + 1)) (ema (emaCoef p) x (t + k)) (v t) :=
  ⟨hfxPick k (o 2) _, fun N => hfema_value_run o p k h0 h1 hp hk hb ht x N, fun t => hfxPick_hampel k (o 2) _ t⟩

/-- hfsma: the filter of the middle one of `2k+1` means. Partial: see `hfsma_overflow`. -/
theorem hfsma_value_partial (o : Nat → R) (p k : Nat) (h0 : toInt (o 0) = .ok (p : Int)) (h1 : toInt (o 1) = .ok (k : Int)) (hp : 1 ≤ p)
    (hk : 1 ≤ k) (hb : 2 * k + 1 ≤ 2147483647) (hb2 : p - 1 + 2 * k ≤ 2147483647) (ht : 0 ≤ o 2) (x : Nat → R) :
    ∃ v : Nat → R, (∀ N, hfsmaBatch o (pre x N) = .ok (.okay, pre v (N - (p - 1 + 2 * k)))) ∧
      ∀ t, HampelIncl (o 2) (seg (winMean p x) t (2 * k + 1)) (winMean p x (t + k)) (v t) :=
  ⟨hfxPick k (o 2) _, fun N => hfsma_value_run o p k h0 h1 hp hk hb hb2 ht x N, fun t => hfxPick_hampel k (o 2) _ t⟩

/-- Every output of hf is one of the last `2k+1` prices, no farther from their median than the threshold allows. -/
theorem hf_no_outlier_partial (o : Nat → R) (k : Nat) (hc : toInt (o 0) = .ok (k : Int)) (hk : 1 ≤ k) (hb : 2 * k + 1 ≤ 2147483647) (ht : 0 ≤ o 1)
    (x : Nat → R) : ∃ v : Nat → R, (∀ N, hfBatch o (pre x N) = .ok (.okay, pre v (N - 2 * k))) ∧
      ∀ t, v t ∈ seg x t (2 * k + 1) ∧ ∀ med mad, IsMedian (seg x t (2 * k + 1)) med →
        IsMedian ((seg x t (2 * k + 1)).map fun v => |v - med|) mad → |v t - med| ≤ o 1 * (14826 / 10000) * mad := by
  obtain ⟨v, h1, h2⟩ := hf_value_partial o k hc hk hb ht x
  refine ⟨v, h1, fun t => hampel_no_outlier ht ?_ (h2 t)⟩
  exact List.mem_map.2 ⟨2 * k, List.mem_range.2 (by omega), rfl⟩

/-- An increasing affine map of the prices maps the filtered values. -/
theorem median_affine {w : List R} {m : R} (h : IsMedian w m) (a b : R) (ha : 0 < a) : IsMedian (w.map fun v => a * v + b) (a * m + b) := by
  obtain ⟨h1, h2, h3⟩ := h
  have le : ∀ u v : R, a * u + b ≤ a * v + b ↔ u ≤ v := fun u v => by rw [add_le_add_iff_right, mul_le_mul_iff_right₀ ha]
  refine ⟨List.mem_map.2 ⟨m, h1, rfl⟩, ?_, ?_⟩
  · rw [List.length_map, List.filter_map, List.length_map]
    simpa [Function.comp_def, le] using h2
  · rw [List.length_map, List.filter_map, List.length_map]
    simpa [Function.comp_def, le] using h3

theorem hampel_affine {thr : R} {w : List R} {cand y : R} (h : Hampel thr w cand y) (a b : R) (ha : 0 < a) :
    Hampel thr (w.map fun v => a * v + b) (a * cand + b) (a * y + b) := by
  obtain ⟨m, d, h1, h2, rfl⟩ := h
  refine ⟨a * m + b, a * d, median_affine h1 a b ha, ?_, ?_⟩
  · have := median_affine h2 a 0 ha
    simp only [add_zero, List.map_map] at this ⊢
    refine (congrArg (fun l => IsMedian l (a * d)) (List.map_congr_left fun v _ => ?_)).mp this
    simp only [Function.comp]
    rw [show a * v + b - (a * m + b) = a * (v - m) by ring, abs_mul, abs_of_pos ha]
  · rw [show a * cand + b - (a * m + b) = a * (cand - m) by ring, abs_mul, abs_of_pos ha,
      show thr * (14826 / 10000) * (a * d) = a * (thr * (14826 / 10000) * d) by ring, apply_ite (fun v => a * v + b)]
    simp only [mul_lt_mul_iff_right₀ ha]

/-- Rescaling and shifting all prices rescales and shifts the filtered ones. -/
theorem hf_affine_partial (o : Nat → R) (k : Nat) (hc : toInt (o 0) = .ok (k : Int)) (hk : 1 ≤ k) (hb : 2 * k + 1 ≤ 2147483647) (ht : 0 ≤ o 1)
    (a b : R) (ha : 0 < a) (x : Nat → R) : ∃ v : Nat → R, ∀ N, hfBatch o (pre x N) = .ok (.okay, pre v (N - 2 * k)) ∧
      hfBatch o (pre (fun n => a * x n + b) N) = .ok (.okay, pre (fun t => a * v t + b) (N - 2 * k)) := by
  obtain ⟨v, h1, h2⟩ := hf_value_partial o k hc hk hb ht x
  obtain ⟨u, h3, h4⟩ := hf_value_partial o k hc hk hb ht (fun n => a * x n + b)
  refine ⟨v, fun N => ⟨h1 N, ?_⟩⟩
  rw [h3, show u = fun t => a * v t + b from funext fun t => hampel_unique (h4 t) ?_]
  have := hampel_affine (h2 t) a b ha
  simpa [seg, List.map_map, Function.comp_def] using this

end Exact

/-! ### Concrete cases -/

section Examples

def hfx : List ℚ := [10, 11, 12, 100, 11, 10, 13, 12]
example : toInt (opts [1, 1] 0 : ℚ) = .ok ((1 : Nat) : Int) ∧ (0 : ℚ) ≤ opts [1, 1] 1 := by decide +kernel
example : hfBatch (opts [1, 1]) hfx = .ok (.okay, [12, 12, 11, 10, 11, 12]) := by decide +kernel
example : (hf (R := ℚ)).session (opts [1, 1]) [hfx.take 3, hfx.drop 3] = .ok (.okay, 6, [12, 12, 11, 10, 11, 12]) := by decide +kernel
example : hfRef (opts [1, 1]) hfx = .ok (.okay, [12, 12, 11, 10, 11, 12]) := by decide +kernel
example : Hampel (1 : ℚ) [10, 11, 12] 12 12 := ⟨11, 1, by unfold IsMedian; decide +kernel, by unfold IsMedian; decide +kernel, by decide +kernel⟩
example : hfemaBatch (opts [3, 1, 1]) hfx = .ok (.okay, [21/2, 45/4, 445/8, 533/16, 693/32, 1109/64]) := by decide +kernel
example : hfemaRef (opts [3, 1, 1]) hfx = .ok (.okay, [21/2, 45/4, 445/8, 533/16, 693/32, 1109/64]) := by decide +kernel
example : hfsmaBatch (opts [2, 1, 1]) hfx = .ok (.okay, [23/2, 56, 111/2, 21/2, 23/2]) := by decide +kernel
example : (hfsma (R := ℚ)).session (opts [2, 1, 1]) [hfx.take 3, hfx.drop 3] = .ok (.okay, 5, [23/2, 56, 111/2, 21/2, 23/2]) := by decide +kernel
example : (hfsma (R := ℚ)).session (opts [4, 1, 1]) [hfx.take 3] = .ok (.okay, -2, []) := by decide +kernel
example : (hfsma (R := ℚ)).session (opts [4, 1, 1]) [hfx.take 3, hfx.drop 3] = .error .assertFail := by decide +kernel

end Examples
end Verif
