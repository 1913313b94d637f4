/-
C53-C55 and C03, C32-C36 for pfe, cmi and mhlma.
-/
import Verif.Proof.Trail
import Verif.Props.Chan
import Verif.Props.Average
import Verif.Spec.Trail
import Verif.Core.RatInst
import Verif.Core.RealInst

set_option linter.unusedSectionVars false
set_option linter.unusedSimpArgs false
set_option linter.unusedVariables false

namespace Verif
open Spec Finset

section Any
variable {R : Type} [Num R]

theorem pfe_refuses (o : Nat → R) (p e : Int) (h0 : toInt (o 0) = .ok p) (h1 : toInt (o 1) = .ok e) (h : p < 1 ∨ e < 1) :
    Refuses pfeBatch o := by
  intro xs
  by_cases hp : p < 1
  · simp [pfeBatch, h0, h1, hp]
  · simp [pfeBatch, h0, h1, hp, h.resolve_left hp]
theorem pfe_stream_refuses (o : Nat → R) (h : o 0 < c! 1 ∨ o 1 < c! 1) : (pfe (R := R)).NewRefuses o := by
  by_cases hp : o 0 < c! 1
  · simp [Indicator.NewRefuses, pfe, pfeNew, hp]
  · simp [Indicator.NewRefuses, pfe, pfeNew, hp, h.resolve_left hp]
theorem pfe_chunks (o : Nat → R) : (pfe (R := R)).ChunkInvariant o := chunkInvariant_of pfePhases_ordered o
/-- Whatever the arithmetic: every accepted pair of options. -/
theorem pfe_contract (o : Nat → R) (p e : Nat) (hcp : toInt (o 0) = .ok (p : Int)) (hce : toInt (o 1) = .ok (e : Int)) (hp : 1 ≤ p)
    (he : 1 ≤ e) : Contract pfeStart pfeBatch o p := (pfe_run o p e hcp hce hp he).contract hcp
/-- The stream needs a ring of `period + 1` cells; where that conversion fails so does `stream_new`. -/
theorem pfe_stream_overflow (o : Nat → R) (p e : Int) (hcp : toInt (o 0) = .ok p) (hce : toInt (o 1) = .ok e) (h0 : ¬ o 0 < c! 1)
    (h1 : ¬ o 1 < c! 1) (hr : toInt (o 0 + c! 1) = .error .intRange) : (pfe (R := R)).new o = .error .intRange := by
  simp only [pfe, pfeNew, if_neg h0, if_neg h1, pfeStart, hcp, hce, hr, bind_ok]
  rfl

theorem cmi_refuses (o : Nat → R) (p : Int) (hc : toInt (o 0) = .ok p) (h : p < 1) : Refuses cmiBatch o :=
  fun xs => by simp [cmiBatch, hc, h]
theorem cmi_stream_refuses (o : Nat → R) (h : o 0 < c! 1) : Refuses cmiRef o ∧ (cmi (R := R)).NewRefuses o :=
  ⟨fun xs => by simp [cmiRef, h], by simp [Indicator.NewRefuses, cmi, cmiNew, h]⟩

theorem mhlma_refuses (o : Nat → R) (p ma : Int) (h0 : toInt (o 0) = .ok p) (h1 : toInt (o 1) = .ok ma) (h : p < 1 ∨ ma < 1) :
    Refuses mhlmaBatch o ∧ (mhlma (R := R)).NewRefuses o :=
  ⟨fun xs => by simp only [mhlmaBatch, h0, h1, bind_ok, if_pos h]; rfl, by
    simp only [Indicator.NewRefuses, mhlma, mhlmaNew, h0, h1, bind_ok, if_pos h]; rfl⟩
theorem mhlma_chunks (o : Nat → R) : (mhlma (R := R)).ChunkInvariant o := chunkInvariant_of (fun k => by
  show Phases.Ordered (mhlmaPhases k)
  phases_ordered mhlmaPhases) o

theorem HiLo.mid_take (a b : R) : ∃ m, (HiLo.take ⟨⟨some a, some 0⟩, ⟨some a, some 0⟩⟩ b b 1).mid = .ok m := by
  unfold HiLo.take Ext.take HiLo.mid
  dsimp only
  split_ifs <;> exact ⟨_, rfl⟩

/-- With the largest average period `ma_period + 1` is not an `int`: evaluated for the second value. -/
theorem mhlma_overflow (o : Nat → R) (p : Nat) (h0 : toInt (o 0) = .ok (p : Int)) (hp : 2 ≤ p) (h1 : toInt (o 1) = .ok 2147483647)
    (st : Int) (hs : mhlmaStart o = .ok st) (a b : R) (xs : List R) : mhlmaBatch o (a :: b :: xs) = .error .intRange := by
  have hb : i32 (2147483647 + 1) = .error .intRange := by unfold i32; rw [if_neg (by omega)]
  have : Inhabited R := ⟨c! 0⟩
  obtain ⟨x, hx⟩ := exists_pre (a :: b :: xs)
  have h2 : 1 < (a :: b :: xs).length := by simp
  generalize (a :: b :: xs) = l at *
  obtain ⟨m, hm⟩ := HiLo.mid_take (x 0) (x 1)
  have hp' : 1 ≤ 2147483647 := by omega
  generalize hh : (fun n => if n = 0 then (x 0 + x 0) / c! 2 else m : Nat → R) = h
  have e0 : h 0 = (x 0 + x 0) / c! 2 := by rw [← hh]; rfl
  have e1 : h 1 = m := by rw [← hh]; rfl
  unfold mhlmaBatch
  rw [h0, bind_ok, h1, bind_ok, if_neg (by omega), show (2147483647 : Int) = ((2147483647 : Nat) : Int) from rfl,
    Ring.make_after h 2147483647 hp', bind_ok, hs, bind_ok, hx]
  refine loopBatch_err (σ := MhlS R) (ω := Mhl R) _ (Phases.Ordered.from (by phases_ordered mhlmaLoops) _) x
    (fun n => if n = 0 then (⟨c! 0, c! 0, .zero, Ring.after h 2147483647 0⟩ : MhlS R) else
      (⟨c! 0 + (x 0 + x 0) / c! 2, (x 0 + x 0) / c! 2, ⟨⟨some (x 0), some 0⟩, ⟨some (x 0), some 0⟩⟩,
        Ring.after h 2147483647 1⟩ : MhlS R)) (fun _ => []) .intRange 1 rfl (fun n hn => ?_) ?_ _ h2
  · obtain rfl : n = 0 := by omega
    simp only [barStep, mhlmaLoops, List.find?]
    rw [decide_eq_true (show (0 : Int) + (0 : Nat) < 1 by omega)]
    simp only [if_true, one_ne_zero, if_false, Nat.zero_add]
    rw [Ring.after_set h _ hp' 0 _ e0.symm, bind_ok, Ring.now_step h _ 0]
    rfl
  · simp only [barStep, mhlmaLoops, List.find?]
    rw [decide_eq_false (show ¬ (0 : Int) + (1 : Nat) < 1 by omega), decide_eq_true (show (0 : Int) + (1 : Nat) < p by omega),
      decide_eq_true (show (0 : Int) + (1 : Nat) < ((2147483647 : Nat) : Int) - 1 by omega), show (true && true) = true from rfl]
    simp only [one_ne_zero, if_false]
    unfold mhlNext
    refine bind_err ?_
    rw [show (0 : Int) + (1 : Nat) = 1 from rfl, hm, bind_ok, Ring.after_set h _ hp' 1 _ e1.symm, bind_ok]
    refine bind_err hb

end Any

section Exact
variable {R : Type} [Field R] [LinearOrder R] [IsStrictOrderedRing R] [CMath R]

/-! pfe -/

theorem pfeMove_eq [LawfulPow R] (x : Nat → R) (k : Nat) : pfeMove x k = CMath.sqrt ((x (k + 1) - x k) ^ 2 + 1) := by
  unfold pfeMove pfeStep
  have := LawfulPow.pow_two (x (k + 1) - x k)
  push_cast
  rw [this]
theorem pfeNumer_eq [LawfulPow R] (a b : R) : pfeNumer a b = (if b < a then 100 else -100) * CMath.sqrt ((a - b) ^ 2 + 100) := by
  unfold pfeNumer
  have := LawfulPow.pow_two (a - b)
  push_cast
  rw [this]
  by_cases h : b < a
  · rw [if_pos (by linarith), if_pos h]; ring
  · rw [if_neg (by linarith), if_neg h]; ring
theorem pfeRaw_eq [LawfulPow R] (p : Nat) (hp : 1 ≤ p) (x : Nat → R) (j : Nat) : pfeRaw p x j = polarEff p x j := by
  unfold pfeRaw polarEff pathLength
  rw [slideS_eq _ _ _ hp, pfeNumer_eq, winSum]
  simp only [pfeMove_eq]

/-- pfe: the smoothed polarized efficiency of each window. -/
theorem pfe_value [LawfulPow R] (o : Nat → R) (p e : Nat) (hcp : toInt (o 0) = .ok (p : Int)) (hce : toInt (o 1) = .ok (e : Int))
    (hp : 1 ≤ p) (he : 1 ≤ e) : Computes pfeBatch o p fun x => ema (emaCoef e) (polarEff p x) :=
  (pfe_run o p e hcp hce hp he).congr fun x j => by
    rw [emaRec_eq, show pfeRaw p x = polarEff p x from funext (pfeRaw_eq p hp x)]
    simp [emaCoef]
/-- The stream smooths with the EMA period as given, before truncation. Partial: the largest period fails
(`pfe_stream_overflow`). -/
theorem pfe_stream_value_partial [LawfulTrunc R] [LawfulRound R] [LawfulPow R] (o : Nat → R) (p e : Nat) (hcp : toInt (o 0) = .ok (p : Int))
    (hce : toInt (o 1) = .ok (e : Int)) (hp : 1 ≤ p) (he : 1 ≤ e) (hb : p < 2147483647) :
    (pfe (R := R)).StreamComputes o p fun x => ema (2 / (o 1 + 1)) (polarEff p x) :=
  StreamComputes.congr (pfe_stream_run o p e hcp hce hp (not_lt_one hcp hp) (not_lt_one hce he) (toInt_succ hcp hp hb)) fun x j => by
    rw [emaRec_eq, show pfeRaw p x = polarEff p x from funext (pfeRaw_eq p hp x)]
    simp
/-- Partial: whole-number EMA periods (`pfe_stream_ne_batch`). -/
theorem pfe_stream_eq_batch_partial [LawfulTrunc R] [LawfulRound R] (o : Nat → R) (p e : Nat) (hcp : toInt (o 0) = .ok (p : Int))
    (ho : o 1 = ((e : Int) : R)) (hp : 1 ≤ p) (he : 1 ≤ e) (hbe : e ≤ 2147483647) (hb : p < 2147483647) :
    (pfe (R := R)).StreamEqBatch o p := by
  have hce : toInt (o 1) = .ok (e : Int) := toInt_cast' ho (by omega)
  have h := pfe_stream_run o p e hcp hce hp (not_lt_one hcp hp) (not_lt_one hce he) (toInt_succ hcp hp hb)
  rw [ho] at h
  exact streamEqBatch_of (pfe_run o p e hcp hce hp he) h
/-- Partial: whole-number periods (`pfe_ref_violates`) and valid EMA periods (`pfe_ref_ne_batch`). -/
theorem pfe_ref_eq_batch_partial [LawfulTrunc R] [LawfulRound R] (o : Nat → R) (p e : Nat) (ho : o 0 = ((p : Int) : R))
    (hb : p ≤ 2147483647) (hce : toInt (o 1) = .ok (e : Int)) (hp : 1 ≤ p) (he : 1 ≤ e) (xs : List R) (hN : xs.length ≤ 2147483647) :
    pfeRef o xs = pfeBatch o xs := by
  have : Inhabited R := ⟨0⟩
  obtain ⟨x, hx⟩ := exists_pre xs
  rw [hx, pfeRef_run o p e ho hb hce hp he x _ hN, pfe_run o p e (toInt_cast' ho (by omega)) hce hp he]
  rfl

theorem pathLength_ge [LawfulSqrt R] (p : Nat) (x : Nat → R) (j : Nat) :
    0 ≤ pathLength p x j ∧ (x (j + p) - x j) ^ 2 + (p : R) ^ 2 ≤ pathLength p x j ^ 2 := by
  induction p with
  | zero => simp [pathLength]
  | succ p ih =>
    have e : pathLength (p + 1) x j = pathLength p x j + CMath.sqrt ((x (j + p + 1) - x (j + p)) ^ 2 + 1) := by
      unfold pathLength; rw [sum_range_succ]
    have q : 0 ≤ (x (j + p + 1) - x (j + p)) ^ 2 + 1 := by positivity
    have s0 := LawfulSqrt.sqrt_nonneg _ q
    have s1 := LawfulSqrt.sqrt_sq _ q
    rw [e, ← Nat.add_assoc]
    generalize CMath.sqrt ((x (j + p + 1) - x (j + p)) ^ 2 + 1) = s at *
    generalize pathLength p x j = S at *
    have hd : x (j + p + 1) - x j = (x (j + p) - x j) + (x (j + p + 1) - x (j + p)) := by ring
    rw [hd]
    generalize x (j + p) - x j = d at *
    generalize x (j + p + 1) - x (j + p) = δ at *
    have cs : (d * δ + p) ^ 2 ≤ (S * s) ^ 2 := by
      have h1 : (d * δ + p) ^ 2 ≤ (d ^ 2 + (p : R) ^ 2) * (δ ^ 2 + 1) := by nlinarith [sq_nonneg (d - p * δ)]
      have h2 : (d ^ 2 + (p : R) ^ 2) * (δ ^ 2 + 1) ≤ S ^ 2 * (s * s) := by rw [s1]; exact mul_le_mul_of_nonneg_right ih.2 q
      calc _ ≤ _ := h1
        _ ≤ _ := h2
        _ = _ := by ring
    have h3 := (abs_le.1 (abs_le_of_sq_le_sq cs (mul_nonneg ih.1 s0))).2
    refine ⟨by linarith [ih.1], ?_⟩
    push_cast
    nlinarith [ih.2]

theorem polarEff_abs_le [LawfulSqrt R] (p : Nat) (hp : 10 ≤ p) (x : Nat → R) (j : Nat) : |polarEff p x j| ≤ 100 := by
  obtain ⟨h0, h1⟩ := pathLength_ge p x j
  have hp' : (10 : R) ≤ p := by exact_mod_cast hp
  have q : 0 ≤ (x (j + p) - x j) ^ 2 + 100 := by positivity
  have s0 := LawfulSqrt.sqrt_nonneg _ q
  have s1 := LawfulSqrt.sqrt_sq _ q
  have hle : CMath.sqrt ((x (j + p) - x j) ^ 2 + 100) ≤ pathLength p x j :=
    by
    refine le_trans (le_abs_self _) (abs_le_of_sq_le_sq ?_ h0)
    rw [sq, s1]
    nlinarith
  have hS : 0 < pathLength p x j := by
    rcases h0.lt_or_eq with h | h
    · exact h
    · rw [← h] at h1; nlinarith [sq_nonneg (x (j + p) - x j)]
  unfold polarEff
  rw [abs_div, abs_mul, abs_of_nonneg s0, abs_of_pos hS]
  have : |(if x j < x (j + p) then (100 : R) else -100)| = 100 := by split_ifs <;> simp
  rw [this, div_le_iff₀ hS]
  linarith

/-- For periods of at least 10 the output lies between -100 and 100. (For shorter ones see `pfe_range_violates`.) -/
theorem pfe_range_partial [LawfulPow R] [LawfulSqrt R] (o : Nat → R) (p e : Nat) (hcp : toInt (o 0) = .ok (p : Int))
    (hce : toInt (o 1) = .ok (e : Int)) (hp : 10 ≤ p) (he : 1 ≤ e) (x : Nat → R) (N : Nat) :
    ∃ v : Nat → R, pfeBatch o (pre x N) = .ok (.okay, pre v (N - p)) ∧ ∀ j, -100 ≤ v j ∧ v j ≤ 100 :=
  ⟨_, pfe_value o p e hcp hce (by omega) he x N, fun j =>
    ema_bounds_aux (emaCoef_bounds e he).1.le (emaCoef_bounds e he).2 _ _ _ _ fun k _ => abs_le.1 (polarEff_abs_le p hp x k)⟩

/-- On a constant series the output is `-1000 / p`: below -100 for every period under 10. -/
theorem pfe_range_violates [LawfulPow R] [LawfulSqrt R] (o : Nat → R) (p e : Nat) (hcp : toInt (o 0) = .ok (p : Int))
    (hce : toInt (o 1) = .ok (e : Int)) (hp : 1 ≤ p) (he : 1 ≤ e) (c : R) (N : Nat) :
    pfeBatch o (pre (fun _ => c) N) = .ok (.okay, pre (fun _ => -1000 / (p : R)) (N - p)) := by
  rw [pfe_value o p e hcp hce hp he]
  congr 3
  funext j
  have s100 : CMath.sqrt (100 : R) = 10 := by
    have := sqrt_square (10 : R) (by norm_num); rw [← this]; norm_num
  have s1 : CMath.sqrt (1 : R) = 1 := by
    have := sqrt_square (1 : R) (by norm_num); rwa [one_mul] at this
  have hf : polarEff p (fun _ => c) = fun _ => -1000 / (p : R) := by
    funext j
    simp [polarEff, pathLength, s100, s1]
    norm_num
  beta_reduce
  rw [hf]
  induction j with
  | zero => rfl
  | succ j ih => rw [ema, ih]; simp

/-- With a fractional period and more than `p` values the reference reads before the input array. -/
theorem pfe_ref_violates [LawfulTrunc R] [LawfulRound R] (o : Nat → R) (p : Nat) (h1 : (p : R) < o 0) (h2 : o 0 < (p : R) + 1) (hp : 1 ≤ p)
    (hb : p ≤ 2147483647) (x : Nat → R) (N : Nat) (hN : p < N) : pfeRef o (pre x N) = .error .oobRead := by
  have hc : toInt (o 0) = .ok (p : Int) := toInt_of_within h1.le h2 hb
  have hl : toInt ((((p : Nat) : Int) : R) - o 0 + c! 1) = .ok 0 :=
    toInt_of_within (p := 0) (by push_cast; linarith) (by push_cast; linarith) (by omega)
  unfold pfeRef
  rw [if_neg (not_lt_one hc hp), pfeStart, hc, bind_ok, length_pre, if_neg (by omega)]
  refine bind_err ?_
  refine forUp_err p p (fun _ => []) rfl rfl le_rfl (by omega) (fun i h1 h2 => by omega) ?_
  rw [hl, bind_ok]
  refine bind_err ?_
  refine forUp_err 0 0 (fun _ => c! 0) rfl rfl le_rfl (by omega) (fun i h1 h2 => by omega) ?_
  rw [rd_pre_nat _ _ _ (by omega), bind_ok]
  refine bind_err (rd_oob _ _ (by simp))

/-! cmi -/

section
variable [LawfulTrunc R] [LawfulRound R]

theorem cmi_chunks (o : Nat → R) : (cmi (R := R)).ChunkInvariant o := chunkInvariant_of (fun k => cmiPhases_ordered (R := R) k) o

theorem cmiVal_eq (lp : R) (p : Nat) (hp : 2 ≤ p) (x : Nat → HLC R) (hx : ∀ n, (x n).low ≤ (x n).high) (j : Nat) :
    cmiVal lp (recMax p (ceTr x)) (recMin p (ceTr x)) (ceTr x) p (p - 1 + j) = CMath.log (rangeShare p x j) / lp * 100 := by
  rw [cmiVal, recMax_full _ _ _ (by omega), recMin_full _ _ _ (by omega), mhlSum_slide p hp, show p - 1 + j = j + (p - 1) by omega,
    slideS_eq _ _ _ (by omega), ceTr_eq x hx, show j + (p - 1) + 1 - p = j by omega, rangeShare]
  push_cast
  rfl

/-- cmi: the logarithm to base `p` of the range share, times 100. Partial: period 1 is `cmi_violates`. -/
theorem cmi_value_partial (o : Nat → R) (p : Nat) (hc : toInt (o 0) = .ok (p : Int)) (hp : 2 ≤ p) (x : Nat → HLC R)
    (hx : ∀ n, (x n).low ≤ (x n).high) (N : Nat) :
    cmiBatch o (pre x N) = .ok (.okay, pre (fun j => CMath.log (rangeShare p x j) / CMath.log (p : R) * 100) (N - (p - 1))) := by
  have h := cmi_run o p hc (toInt_sub_one hc (by omega)) (by omega) x N
  rw [max_eq_right (by omega)] at h
  rw [h]
  congr 3
  funext j
  dsimp only
  rw [cmiVal_eq _ p hp x hx]
  simp
/-- Partial: period 1 is `cmi_violates`. -/
theorem cmi_contract_partial (o : Nat → R) (p : Nat) (hc : toInt (o 0) = .ok (p : Int)) (hp : 2 ≤ p) : Contract cmiStart cmiBatch o (p - 1) := by
  have h := cmi_run o p hc (toInt_sub_one hc (by omega)) (by omega)
  rw [max_eq_right (by omega)] at h
  exact h.contract (toInt_sub_one hc (by omega))
/-- With period 1 one value fewer than announced is written. -/
theorem cmi_violates (o : Nat → R) (hc : toInt (o 0) = .ok 1) (x : Nat → HLC R) (N : Nat) :
    cmiStart o = .ok 0 ∧ ∃ v, cmiBatch o (pre x N) = .ok (.okay, pre v (N - 1)) :=
  ⟨toInt_sub_one (p := 1) hc le_rfl, _, cmi_run o 1 hc (toInt_sub_one (p := 1) hc le_rfl) le_rfl x N⟩

/-- Partial: whole-number periods from 2 on; for fractional ones see `cmi_stream_fractional`. -/
theorem cmi_stream_value_partial (o : Nat → R) (p : Nat) (ho : o 0 = ((p : Int) : R)) (hb : p ≤ 2147483647) (hp : 2 ≤ p) :
    (cmi (R := R)).StreamComputes o (p - 1) fun x j => cmiVal (CMath.log ((p : Int) : R)) (recMax p (ceTr x)) (recMin p (ceTr x)) (ceTr x) p
      (p - 1 + j) :=
  cmi_stream_run o p ho (toInt_cast' ho (by omega)) (toInt_sub_one (toInt_cast' ho (by omega)) (by omega)) hp
theorem cmi_stream_eq_batch_partial (o : Nat → R) (p : Nat) (ho : o 0 = ((p : Int) : R)) (hb : p ≤ 2147483647) (hp : 2 ≤ p) :
    (cmi (R := R)).StreamEqBatch o (p - 1) := by
  have hc : toInt (o 0) = .ok (p : Int) := toInt_cast' ho (by omega)
  have h := cmi_run o p hc (toInt_sub_one hc (by omega)) (by omega)
  rw [max_eq_right (by omega)] at h
  exact streamEqBatch_of h (cmi_stream_value_partial o p ho hb hp)
/-- With a fractional period the stream compares a whole index with a fractional one, so the extremes never leave its window:
it uses the greatest and the least true range since the first bar, and the logarithm to the fractional base. -/
theorem cmi_stream_fractional (o : Nat → R) (p : Nat) (h1 : (p : R) < o 0) (h2 : o 0 < (p : R) + 1) (hb : p ≤ 2147483647) (hp : 2 ≤ p)
    (x : Nat → HLC R) (hx : ∀ n, (x n).low ≤ (x n).high) (chunks : List (List (HLC R))) (N : Nat) (hN : chunks.flatten = pre x N) :
    (cmi (R := R)).session o chunks = .ok (.okay, (N : Int) - (p - 1 : Nat), pre (fun j =>
      CMath.log ((winMax (j + p) (Spec.trueRange x) 0 - winMin (j + p) (Spec.trueRange x) 0) / winSum p (Spec.trueRange x) j) /
        CMath.log (o 0) * 100) (N - (p - 1))) := by
  have hc : toInt (o 0) = .ok (p : Int) := toInt_of_within h1.le h2 hb
  rw [cmi_stream_frac o p hc (toInt_sub_one hc (by omega)) hp h1 h2 x N chunks hN]
  congr 4
  funext j
  dsimp only
  rw [cmiVal, allMax, allMin, mhlSum_slide p hp, show p - 1 + j = j + (p - 1) by omega, slideS_eq _ _ _ (by omega), ceTr_eq x hx,
    show j + (p - 1) + 1 = j + p by omega]
  push_cast
  rfl

/-- Partial: whole-number periods from 2 on, well-formed bars and enough of them (`cmi_ref_violates`). -/
theorem cmi_ref_eq_batch_partial [LawfulAbs R] (o : Nat → R) (p : Nat) (ho : o 0 = ((p : Int) : R)) (hb : p ≤ 2147483647) (hp : 2 ≤ p)
    (x : Nat → HLC R) (hx : ∀ n, (x n).low ≤ (x n).high) (N : Nat) (hN : p ≤ N + 1) (hbN : N ≤ 2147483647) :
    cmiRef o (pre x N) = cmiBatch o (pre x N) := by
  have hc : toInt (o 0) = .ok (p : Int) := toInt_cast' ho (by omega)
  have h := cmi_run o p hc (toInt_sub_one hc (by omega)) (by omega) x N
  rw [max_eq_right (by omega)] at h
  rw [h, cmiRef_run o p hc (not_lt_one hc (by omega)) (toInt_sub_one hc (by omega)) hp x N hN hbN, ho]
  beta_reduce
  rw [ceTr_eq x hx, show trSig x = Spec.trueRange x from funext (trSig_eq x)]
/-- With fewer than `p - 1` bars the reference asks for an array of negative length. -/
theorem cmi_ref_violates (o : Nat → R) (p : Nat) (hc : toInt (o 0) = .ok (p : Int)) (hp : 1 ≤ p) (xs : List (HLC R))
    (hN : xs.length + 1 < p) : cmiRef o xs = .error .intRange := by
  have := toInt_range hc
  unfold cmiRef
  rw [if_neg (not_lt_one hc hp), hc, bind_ok, i32_ok _ (by omega) (by omega), bind_ok, if_pos (by omega)]
  rfl

end

/-- The quantity inside the logarithm lies between 0 and 1. -/
theorem rangeShare_bounds (p : Nat) (hp : 1 ≤ p) (x : Nat → HLC R) (hx : ∀ n, (x n).low ≤ (x n).high) (j : Nat) :
    0 ≤ rangeShare p x j ∧ rangeShare p x j ≤ 1 := by
  have t0 := fun k => trueRange_nonneg x k (hx k)
  have hS : 0 ≤ winSum p (Spec.trueRange x) j := sum_nonneg fun k _ => t0 _
  have hle : winMin p (Spec.trueRange x) j ≤ winMax p (Spec.trueRange x) j :=
    (chan_min_le p hp _ j j le_rfl (by omega)).trans (chan_le_max p hp _ j j le_rfl (by omega))
  have hM : winMax p (Spec.trueRange x) j ≤ winSum p (Spec.trueRange x) j := by
    refine Finset.sup'_le _ _ fun k hk => ?_
    exact single_le_sum (f := fun k => Spec.trueRange x (j + k)) (fun i _ => t0 _) (by simp at hk ⊢; omega)
  have hm : 0 ≤ winMin p (Spec.trueRange x) j := Finset.le_inf' _ _ fun k _ => t0 _
  exact ⟨div_nonneg (by linarith) hS, div_le_one_of_le₀ (by linarith) hS⟩

/-! mhlma -/

theorem mhlM_eq (p : Nat) (x : Nat → R) : mhlM p x = midRange p x := by
  funext n
  rw [mhlM, midRange, recMax, recMin]
  simp

theorem mhlE_eq (ma : Nat) (m : Nat → R) (n : Nat) : mhlE ma m n = ema (emaCoef ma) m n := by
  induction n with
  | zero => rfl
  | succ n ih =>
    rw [mhlE, ih, ema, emaCoef]
    push_cast
    ring

theorem mhlVal_eq (p ma : Nat) (hma : 2 ≤ ma) (x : Nat → R) (j : Nat) : mhlVal p ma x (ma - 1 + j) =
    ⟨winMean ma (midRange p x) j, ema (emaCoef ma) (midRange p x) (j + (ma - 1))⟩ := by
  rw [mhlVal, mhlM_eq, mhlSum_slide ma hma, show ma - 1 + j = j + (ma - 1) by omega, slideS_eq _ _ _ (by omega), mhlE_eq, winMean]
  simp

section
variable [LawfulTrunc R] [LawfulRound R]

/-- mhlma: the mean and the EMA of the middle of the recent range. Partial: average periods from 2 on (`mhlma_violates`) except the
largest (`mhlma_overflow`). -/
theorem mhlma_value_partial (o : Nat → R) (p ma : Nat) (hcp : toInt (o 0) = .ok (p : Int)) (hcm : toInt (o 1) = .ok (ma : Int))
    (hp : 1 ≤ p) (hma : 2 ≤ ma) (hb : ma < 2147483647) : Computes mhlmaBatch o (ma - 1) fun x j =>
      ⟨winMean ma (midRange p x) j, ema (emaCoef ma) (midRange p x) (j + (ma - 1))⟩ := by
  have h := mhlma_run o p ma hcp hcm (toInt_sub_one hcm (by omega)) hp (by omega) hb
  rw [max_eq_right (by omega)] at h
  exact h.congr fun x j => mhlVal_eq p ma hma x j
theorem mhlma_contract_partial (o : Nat → R) (p ma : Nat) (hcp : toInt (o 0) = .ok (p : Int)) (hcm : toInt (o 1) = .ok (ma : Int))
    (hp : 1 ≤ p) (hma : 2 ≤ ma) (hb : ma < 2147483647) : Contract mhlmaStart mhlmaBatch o (ma - 1) :=
  (mhlma_value_partial o p ma hcp hcm hp hma hb).contract (toInt_sub_one hcm (by omega))
/-- With average period 1 one value fewer than announced is written, and the "mean" has the first value added to it. -/
theorem mhlma_violates (o : Nat → R) (p : Nat) (hcp : toInt (o 0) = .ok (p : Int)) (hcm : toInt (o 1) = .ok 1) (hp : 1 ≤ p)
    (x : Nat → R) (N : Nat) : mhlmaStart o = .ok 0 ∧ ∃ v : Nat → Mhl R, mhlmaBatch o (pre x N) = .ok (.okay, pre v (N - 1)) ∧
      ∀ j, (v j).sma = x 0 + midRange p x (j + 1) := by
  have hs : mhlmaStart o = .ok ((1 - 1 : Nat) : Int) := toInt_sub_one (p := 1) hcm le_rfl
  refine ⟨hs, _, mhlma_run o p 1 hcp hcm hs hp le_rfl (by omega) x N, fun j => ?_⟩
  have hsum : ∀ n, mhlSum 1 (mhlM p x) (n + 1) = mhlM p x 0 := by
    intro n
    induction n with
    | zero => simp [mhlSum]
    | succ n ih => rw [mhlSum, if_neg (by omega), ih]; simp
  show (mhlVal p 1 x (max 1 (1 - 1) + j)).sma = _
  rw [show max 1 (1 - 1) + j = j + 1 by simp; omega, mhlVal, hsum, ← mhlM_zero p hp, mhlM_eq]
  simp
/-- Every output lies between the least and the greatest input so far. -/
theorem mhlma_bounds_partial (o : Nat → R) (p ma : Nat) (hcp : toInt (o 0) = .ok (p : Int)) (hcm : toInt (o 1) = .ok (ma : Int))
    (hp : 1 ≤ p) (hma : 2 ≤ ma) (hb : ma < 2147483647) (lo hi : R) (x : Nat → R) (hx : ∀ n, lo ≤ x n ∧ x n ≤ hi) (N : Nat) :
    ∃ v : Nat → Mhl R, mhlmaBatch o (pre x N) = .ok (.okay, pre v (N - (ma - 1))) ∧
      ∀ j, (lo ≤ (v j).sma ∧ (v j).sma ≤ hi) ∧ lo ≤ (v j).ema ∧ (v j).ema ≤ hi := by
  have hm : ∀ n, lo ≤ midRange p x n ∧ midRange p x n ≤ hi := by
    intro n
    have a1 : lo ≤ winMin (min p (n + 1)) x (n + 1 - min p (n + 1)) := Finset.le_inf' _ _ fun k _ => (hx _).1
    have a2 : winMax (min p (n + 1)) x (n + 1 - min p (n + 1)) ≤ hi := Finset.sup'_le _ _ fun k _ => (hx _).2
    have a3 : winMin (min p (n + 1)) x (n + 1 - min p (n + 1)) ≤ winMax (min p (n + 1)) x (n + 1 - min p (n + 1)) :=
      (chan_min_le _ (by omega) x _ _ le_rfl (by omega)).trans (chan_le_max _ (by omega) x _ _ le_rfl (by omega))
    unfold midRange
    constructor <;> linarith
  refine ⟨_, mhlma_value_partial o p ma hcp hcm hp hma hb x N, fun j => ⟨?_, ema_bounds_aux (emaCoef_bounds ma (by omega)).1.le
    (emaCoef_bounds ma (by omega)).2 _ _ _ _ fun k _ => hm k⟩⟩
  have hpos : (0 : R) < ma := by exact_mod_cast (show 0 < ma by omega)
  show lo ≤ winSum ma (midRange p x) j / (ma : R) ∧ winSum ma (midRange p x) j / (ma : R) ≤ hi
  rw [le_div_iff₀ hpos, div_le_iff₀ hpos]
  have h1 := card_nsmul_le_sum (range ma) (fun k => midRange p x (j + k)) lo fun k _ => (hm _).1
  have h2 := sum_le_card_nsmul (range ma) (fun k => midRange p x (j + k)) hi fun k _ => (hm _).2
  simp only [card_range, nsmul_eq_mul] at h1 h2
  exact ⟨by rw [mul_comm]; exact h1, by rw [mul_comm]; exact h2⟩

theorem mhlma_stream_value_partial (o : Nat → R) (p ma : Nat) (hcp : toInt (o 0) = .ok (p : Int)) (hcm : toInt (o 1) = .ok (ma : Int))
    (hp : 1 ≤ p) (hma : 2 ≤ ma) (hb : ma < 2147483647) : (mhlma (R := R)).StreamComputes o (ma - 1) fun x j =>
      ⟨winMean ma (midRange p x) j, ema (emaCoef ma) (midRange p x) (j + (ma - 1))⟩ :=
  StreamComputes.congr (mhlma_stream_run o p ma hcp hcm (toInt_sub_one hcm (by omega)) hp hma hb) fun x j => mhlVal_eq p ma hma x j
theorem mhlma_stream_eq_batch_partial (o : Nat → R) (p ma : Nat) (hcp : toInt (o 0) = .ok (p : Int)) (hcm : toInt (o 1) = .ok (ma : Int))
    (hp : 1 ≤ p) (hma : 2 ≤ ma) (hb : ma < 2147483647) : (mhlma (R := R)).StreamEqBatch o (ma - 1) :=
  streamEqBatch_of (mhlma_value_partial o p ma hcp hcm hp hma hb) (mhlma_stream_value_partial o p ma hcp hcm hp hma hb)

/-- Partial: as for the batch call, and with flat addresses (see `mhlma_ref_violates`). -/
theorem mhlma_ref_eq_batch_partial (o : Nat → R) (p ma : Nat) (hcp : toInt (o 0) = .ok (p : Int)) (hcm : toInt (o 1) = .ok (ma : Int))
    (hp : 1 ≤ p) (hma : 2 ≤ ma) (hb : ma < 2147483647) (xs : List R) : mhlmaRef false o xs = mhlmaBatch o xs := by
  obtain ⟨x, hx⟩ := exists_pre xs
  rw [hx, mhlma_value_partial o p ma hcp hcm hp hma hb, mhlmaRef_run o p ma hcp hcm (not_lt_one hcp hp) (not_lt_one hcm (by omega))
    (toInt_sub_one hcm (by omega)) hp (by omega)]
  beta_reduce
  rw [mhlM_eq]
/-- With average period 1 the reference writes a value for the first input and the batch call does not. -/
theorem mhlma_ref_ne_batch (o : Nat → R) (p : Nat) (hcp : toInt (o 0) = .ok (p : Int)) (hcm : toInt (o 1) = .ok 1) (hp : 1 ≤ p)
    (x : Nat → R) (N : Nat) (hN : 1 ≤ N) : mhlmaRef false o (pre x N) ≠ mhlmaBatch o (pre x N) := by
  have hs : mhlmaStart o = .ok ((1 - 1 : Nat) : Int) := toInt_sub_one (p := 1) hcm le_rfl
  rw [mhlmaRef_run o p 1 hcp hcm (not_lt_one hcp hp) (not_lt_one (p := 1) hcm le_rfl) hs hp le_rfl,
    mhlma_run o p 1 hcp hcm hs hp le_rfl (by omega) x N]
  intro h
  injection h with h
  have := congrArg (fun r => r.2.length) h
  simp at this
  omega
/-- With a period from 2 on and any input, the reference forms a pointer before its input array. -/
theorem mhlma_ref_violates (o : Nat → R) (p ma : Nat) (hcp : toInt (o 0) = .ok (p : Int)) (hcm : toInt (o 1) = .ok (ma : Int)) (hp : 2 ≤ p)
    (hma : 1 ≤ ma) (a : R) (xs : List R) : mhlmaRef true o (a :: xs) = .error .badPtr := by
  unfold mhlmaRef
  rw [if_neg (not_or.2 ⟨not_lt_one hcp (by omega), not_lt_one hcm hma⟩), hcp, bind_ok]
  refine bind_err ?_
  refine forUp_err 0 0 (fun _ => []) rfl rfl le_rfl (by simp) (fun i h1 h2 => by omega) ?_
  rw [if_pos ⟨rfl, by omega⟩]
  rfl

end
end Exact

/-! With the real logarithm: from period 2 on the output of cmi is never positive. -/

theorem cmi_nonpos_partial (o : Nat → ℝ) (p : Nat) (hc : toInt (o 0) = .ok (p : Int)) (hp : 2 ≤ p) (x : Nat → HLC ℝ)
    (hx : ∀ n, (x n).low ≤ (x n).high) (N : Nat) :
    ∃ v : Nat → ℝ, cmiBatch o (pre x N) = .ok (.okay, pre v (N - (p - 1))) ∧ ∀ j, v j ≤ 0 := by
  refine ⟨_, cmi_value_partial o p hc hp x hx N, fun j => ?_⟩
  have h := rangeShare_bounds p (by omega) x hx j
  have h1 : Real.log (rangeShare p x j) ≤ 0 := Real.log_nonpos h.1 h.2
  have h2 : 0 ≤ Real.log (p : ℝ) := Real.log_natCast_nonneg p
  have h3 : Real.log (rangeShare p x j) / Real.log (p : ℝ) ≤ 0 := div_nonpos_of_nonpos_of_nonneg h1 h2
  show Real.log (rangeShare p x j) / Real.log (p : ℝ) * 100 ≤ 0
  linarith

/-- With a fractional period the stream takes the logarithm to another base than the batch call: the first output already differs
(unless the range share is 0 or 1). -/
theorem cmi_stream_ne_batch (o : Nat → ℝ) (p : Nat) (h1 : (p : ℝ) < o 0) (h2 : o 0 < (p : ℝ) + 1) (hb : p ≤ 2147483647) (hp : 2 ≤ p)
    (x : Nat → HLC ℝ) (hx : ∀ n, (x n).low ≤ (x n).high) (hs : 0 < rangeShare p x 0 ∧ rangeShare p x 0 < 1) :
    ∃ v w : ℝ, cmiBatch o (pre x p) = .ok (.okay, [v]) ∧ (cmi (R := ℝ)).session o [pre x p] = .ok (.okay, 1, [w]) ∧ v < w := by
  have hb' := cmi_value_partial o p (toInt_of_within h1.le h2 hb) hp x hx p
  have hs' := cmi_stream_fractional o p h1 h2 hb hp x hx [pre x p] p (by simp)
  rw [show p - (p - 1) = 1 by omega] at hb' hs'
  refine ⟨_, Real.log (rangeShare p x 0) / Real.log (o 0) * 100, hb', ?_, ?_⟩
  · rw [hs', show ((p : Nat) : Int) - ((p - 1 : Nat) : Int) = 1 by omega]
    simp [pre, rangeShare, CMath.log]
  · have hp' : (2 : ℝ) ≤ p := by exact_mod_cast hp
    have a : 0 < Real.log (p : ℝ) := Real.log_pos (by linarith)
    have b : Real.log (p : ℝ) < Real.log (o 0) := Real.log_lt_log (by linarith) h1
    have c : Real.log (rangeShare p x 0) < 0 := Real.log_neg hs.1 hs.2
    show Real.log (rangeShare p x 0) / Real.log (p : ℝ) * 100 < _
    have : Real.log (rangeShare p x 0) / Real.log (p : ℝ) < Real.log (rangeShare p x 0) / Real.log (o 0) := by
      rw [div_lt_div_iff₀ a (a.trans b)]
      nlinarith
    linarith
example : (0 : ℝ) < rangeShare 2 (fun k => (⟨2 * k + 1, 0, 0⟩ : HLC ℝ)) 0 ∧ rangeShare 2 (fun k => (⟨2 * k + 1, 0, 0⟩ : HLC ℝ)) 0 < 1 := by
  have e : rangeShare 2 (fun k => (⟨2 * k + 1, 0, 0⟩ : HLC ℝ)) 0 = 1 / 2 := by
    simp [rangeShare, winMax, winMin, winSum, range_add_one, Spec.trueRange]
    norm_num
  rw [e]
  norm_num

/-! Concrete cases: the hypotheses above are met, and the disagreements are real. -/

example : pfeBatch (opts [1, 3/2]) [0, 0, (24/7 : Rat)] = .ok (.okay, [-1000, 296]) := by decide +kernel
/-- With a fractional EMA period the stream and the batch call disagree. -/
theorem pfe_stream_ne_batch : pfeBatch (opts [1, 3/2]) [0, 0, (24/7 : Rat)] = .ok (.okay, [-1000, 296]) ∧
    (pfe (R := Rat)).session (opts [1, 3/2]) [[0, 0, 24/7]] = .ok (.okay, 2, [-1000, 184/5]) := by decide +kernel
/-- The reference accepts an EMA period the batch call refuses. -/
theorem pfe_ref_ne_batch : pfeRef (opts [1, 0]) [0, 0, (24/7 : Rat)] = .ok (.okay, [-1000, 296]) ∧
    pfeBatch (opts [1, 0]) [0, 0, (24/7 : Rat)] = .ok (.invalidOption, []) := by decide +kernel
example : toInt (opts [10, 3] 0 : Rat) = .ok ((10 : Nat) : Int) ∧ toInt (opts [10, 3] 1 : Rat) = .ok ((3 : Nat) : Int) := by decide +kernel
example : toInt (2147483647 : Rat) = .ok 2147483647 ∧ toInt ((2147483647 : Rat) + c! 1) = .error .intRange := by decide +kernel
example : cmiBatch (opts [3]) [⟨3, 1, 2⟩, ⟨5, 2, 4⟩, ⟨4, 2, 3⟩, ⟨7, 4, (6 : Rat)⟩] = .ok (.okay, [0, 0]) ∧
    cmiBatch (opts [1]) [⟨3, 1, 2⟩, ⟨5, 2, (4 : Rat)⟩] = .ok (.okay, [0]) ∧
    cmiRef (opts [4]) [⟨3, 1, 2⟩, ⟨5, 2, (4 : Rat)⟩] = .error .intRange := by decide +kernel
example : mhlmaBatch (opts [2, 3]) [1, 3, 2, 6, (4 : Rat)] = .ok (.okay, [⟨11/6, 2⟩, ⟨17/6, 3⟩, ⟨23/6, 4⟩]) := by decide +kernel
example : mhlmaBatch (opts [2, 1]) [1, 3, (2 : Rat)] = .ok (.okay, [⟨3, 2⟩, ⟨7/2, 5/2⟩]) := by decide +kernel
example : mhlmaRef true (opts [2, 3]) [1, (3 : Rat)] = .error .badPtr ∧
    mhlmaRef false (opts [2, 3]) [1, 3, (2 : Rat)] = .ok (.okay, [⟨11/6, 2⟩]) := by decide +kernel

end Verif
