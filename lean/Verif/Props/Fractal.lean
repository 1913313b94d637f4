/-
C56-C58 and C03, C32-C36 for hurst, mesastoch and frama.
-/
import Verif.Proof.Fractal
import Verif.Proof.Frama
import Verif.Proof.StreamErr
import Verif.Props.Chan
import Verif.Props.Average
import Verif.Spec.Fractal
import Verif.Core.RatInst
import Verif.Core.RealInst
import Mathlib.Algebra.Order.Chebyshev

set_option linter.unusedSectionVars false
set_option linter.unusedSimpArgs false
set_option linter.unusedVariables false

namespace Verif
open Spec Finset

section Any
variable {R : Type} [Num R]

theorem hurst_refuses (o : Nat → R) (h : o 0 < c! 2) : Refuses hurstBatch o ∧ Refuses hurstRef o ∧ (hurst (R := R)).NewRefuses o :=
  ⟨fun xs => by simp only [hurstBatch, if_pos h]; rfl, fun xs => by simp only [hurstRef, if_pos h]; rfl, by
    simp only [Indicator.NewRefuses, hurst, hurstNew, if_pos h]; rfl⟩

theorem mesastoch_refuses (o : Nat → R) (p m : Int) (h0 : toInt (o 0) = .ok p) (h1 : toInt (o 1) = .ok m) (h : p < 1 ∨ m < 1) :
    Refuses mesastochBatch o ∧ Refuses mesastochRef o ∧ (mesastoch (R := R)).NewRefuses o := by
  by_cases hp : p < 1
  · exact ⟨fun xs => by simp only [mesastochBatch, h0, h1, bind_ok, if_pos hp]; rfl,
      fun xs => by simp only [mesastochRef, h0, h1, bind_ok, if_pos hp]; rfl,
      by simp only [Indicator.NewRefuses, mesastoch, mesastochNew, h0, h1, bind_ok, if_pos hp]; rfl⟩
  · have hm := h.resolve_left hp
    exact ⟨fun xs => by simp only [mesastochBatch, h0, h1, bind_ok, if_neg hp, if_pos hm]; rfl,
      fun xs => by simp only [mesastochRef, h0, h1, bind_ok, if_neg hp, if_pos hm]; rfl,
      by simp only [Indicator.NewRefuses, mesastoch, mesastochNew, h0, h1, bind_ok, if_neg hp, if_pos hm]; rfl⟩
theorem mesastochLoops_ordered' (k : MesaK R) (p st : Int) (hs : 2 ≤ st) (xs : List R) : Phases.Ordered (mesastochLoops k p st xs) := by
  phases_ordered mesastochLoops
theorem mesastochPhases_ordered' (k : Int × MesaK R) : Phases.Ordered (mesastochPhases k) := by phases_ordered mesastochPhases
theorem mesastoch_chunks (o : Nat → R) : (mesastoch (R := R)).ChunkInvariant o := chunkInvariant_of mesastochPhases_ordered' o

theorem mesastochStart_ok (o : Nat → R) (p : Nat) (h0 : toInt (o 0) = .ok (p : Int)) (hb : p ≤ 2147483645) :
    mesastochStart o = .ok ((p + 2 : Nat) : Int) := by
  unfold mesastochStart
  rw [h0, bind_ok, i32_ok _ (by omega) (by omega)]
  rfl
/-- The two largest periods: `period + 2` is not an `int`. -/
theorem mesastoch_overflow (o : Nat → R) (p m : Nat) (h0 : toInt (o 0) = .ok (p : Int)) (h1 : toInt (o 1) = .ok (m : Int)) (hm : 1 ≤ m)
    (hp : 2147483645 < p) : (∀ xs, mesastochBatch o xs = .error .intRange) ∧ (mesastoch (R := R)).new o = .error .intRange := by
  have hs : mesastochStart o = .error .intRange := by
    unfold mesastochStart i32
    rw [h0, bind_ok, if_neg (by omega)]
  refine ⟨fun xs => ?_, ?_⟩
  · unfold mesastochBatch
    rw [h0, bind_ok, h1, bind_ok, if_neg (by omega), if_neg (by omega), Ring.make_after (fun _ => c! 0) p (by omega), bind_ok,
      show (3 : Int) = ((3 : Nat) : Int) from rfl, Ring.make_after (fun _ => c! 0) 3 (by omega), bind_ok, bind_ok, hs]
    rfl
  · simp only [mesastoch, mesastochNew, h0, h1, bind_ok]
    rw [if_neg (by omega), if_neg (by omega), hs]
    rfl

theorem mesaFilter_small (k : MesaK R) (p : Nat) (hp : p = 1 ∨ p = 2) (x0 x1 x2 : R) (st : Ring2 R) (res : Ring R) (e : HiLo R) (h f : Nat → R) :
    mesaFilter k x0 x1 x2 ⟨Ring.after h 3 0, Ring.after f p 0, st, res, e⟩ = .error .assertFail := by
  rcases hp with rfl | rfl <;> rfl

/-- The filter needs three cells of a ring that has `period` cells: with periods 1 and 2 the third bar fails an assertion. -/
theorem mesastoch_violates (o : Nat → R) (p m : Nat) (h0 : toInt (o 0) = .ok (p : Int)) (h1 : toInt (o 1) = .ok (m : Int)) (hm : 1 ≤ m)
    (hp : p = 1 ∨ p = 2) (x : Nat → R) (N : Nat) (hN : 3 ≤ N) : mesastochBatch o (pre x N) = .error .assertFail := by
  unfold mesastochBatch
  rw [h0, bind_ok, h1, bind_ok, if_neg (by omega), if_neg (by omega), Ring.make_after (fun _ => c! 0) p (by omega), bind_ok,
    show (3 : Int) = ((3 : Nat) : Int) from rfl, Ring.make_after (fun _ => c! 0) 3 (by omega), bind_ok, bind_ok,
    mesastochStart_ok o p h0 (by omega), bind_ok]
  refine loopBatch_err (σ := MesaS R) (ω := R) _ (Phases.Ordered.from (mesastochLoops_ordered' _ _ _ (by omega) _) _) x
    (fun n => ⟨Ring.after (fun _ => c! 0) 3 0, Ring.after (fun _ => c! 0) p 0, Ring2.make, Ring.after (fun _ => c! 0) 3 0, .unset⟩)
    (fun _ => []) .assertFail 2 rfl (fun n hn => ?_) ?_ N (by omega)
  · simp only [barStep, mesastochLoops, List.find?]
    rw [decide_eq_true (by omega)]
    rfl
  · simp only [barStep, mesastochLoops, List.find?]
    rw [decide_eq_false (by omega), decide_eq_true (by omega)]
    dsimp only
    rw [show rd (pre x N) (0 + ((2 : Nat) : Int) - 1) = .ok (x 1) from rd_at _ (by omega) (by omega), bind_ok,
      show rd (pre x N) (0 + ((2 : Nat) : Int) - 2) = .ok (x 0) from rd_at _ (by omega) (by omega), bind_ok]
    exact bind_err (mesaFilter_small _ p hp _ _ _ _ _ _ _ _)

/-- The stream fails the same assertion with periods 1 and 2. -/
theorem mesastoch_stream_violates (o : Nat → R) (p m : Nat) (h0 : toInt (o 0) = .ok (p : Int)) (h1 : toInt (o 1) = .ok (m : Int)) (hm : 1 ≤ m)
    (hp : p = 1 ∨ p = 2) (x : Nat → R) (N : Nat) (hN : 3 ≤ N) (chunks : List (List R)) (hx : chunks.flatten = pre x N) :
    (mesastoch (R := R)).session o chunks = .error .assertFail := by
  have h3 : ∀ h : Nat → R, (Ring.make (3 : Int) : M (Ring R)) = .ok (Ring.after h 3 0) := fun h => Ring.make_after h 3 (by omega)
  refine session_err (I := mesastoch) (k := ((p : Int), mesaConst (m : Int))) (p := -((p + 2 : Nat) : Int))
    (s0 := (⟨⟨Ring.after (fun _ => c! 0) 3 0, Ring.after (fun _ => c! 0) p 0, Ring2.make, Ring.after (fun _ => c! 0) 3 0, .unset⟩,
      Ring.after x 3 0⟩ : MesaT R)) ?_ (mesastochPhases_ordered' _) x
    (fun n => (⟨⟨Ring.after (fun _ => c! 0) 3 0, Ring.after (fun _ => c! 0) p 0, Ring2.make, Ring.after (fun _ => c! 0) 3 0, .unset⟩,
      Ring.after x 3 n⟩ : MesaT R)) (fun _ => []) .assertFail 2 rfl (fun n hn => ?_) ?_ N chunks hx (by omega)
  · simp only [mesastoch, mesastochNew, h0, h1, bind_ok]
    rw [if_neg (by omega), if_neg (by omega), mesastochStart_ok o p h0 (by omega), bind_ok, h3 x, bind_ok, bind_ok, bind_ok,
      Ring.make_after (fun _ => c! 0) p (by omega)]
    rfl
  · simp only [mesastoch, barStep, mesastochPhases, List.find?]
    rw [decide_eq_true (by omega)]
    dsimp only
    rw [Ring.after_set x 3 (by omega) n (x n) rfl, bind_ok, Ring.now_step]
    rfl
  · simp only [mesastoch, barStep, mesastochPhases, List.find?]
    rw [decide_eq_false (by omega), decide_eq_true (by omega)]
    dsimp only
    rw [Ring.after_set x 3 (by omega) 2 (x 2) rfl, bind_ok, Ring.now_get x 3 2 1 1 rfl (by omega) (by omega), bind_ok,
      Ring.now_get x 3 2 2 2 rfl (by omega) (by omega), bind_ok]
    exact bind_err (bind_err (mesaFilter_small _ p hp _ _ _ _ _ _ _ _))

theorem frama_refuses (o : Nat → R) (h : o 0 < c! 1 ∨ o 1 < c! 2 ∨ ∃ p : Int, toInt (o 0) = .ok p ∧ p % 2 ≠ 0) : Refuses framaBatch o := by
  intro xs
  unfold framaBatch
  by_cases h0 : o 0 < c! 1
  · rw [if_pos h0]; rfl
  by_cases h1 : o 1 < c! 2
  · rw [if_neg h0, if_pos h1]; rfl
  obtain ⟨p, hc, hp⟩ := (h.resolve_left h0).resolve_left h1
  rw [if_neg h0, if_neg h1, hc, bind_ok, if_pos hp]
  rfl
theorem frama_stream_refuses (o : Nat → R) (h : o 0 < c! 1 ∨ ∃ p : Int, toInt (o 0) = .ok p ∧ p % 2 ≠ 0) : (frama (R := R)).NewRefuses o := by
  unfold Indicator.NewRefuses frama framaNew
  by_cases h0 : o 0 < c! 1
  · simp only [if_pos h0]; rfl
  obtain ⟨p, hc, hp⟩ := h.resolve_left h0
  simp only [if_neg h0, hc, bind_ok]
  rw [if_pos hp]
  rfl

end Any

section Exact
variable {R : Type} [Field R] [LinearOrder R] [IsStrictOrderedRing R] [CMath R]

/-! hurst -/

theorem hurst_chunks (o : Nat → R) : (hurst (R := R)).ChunkInvariant o := chunkInvariant_of (fun k => hurstPhases_ordered (R := R) k) o

theorem hD_eq (x : Nat → R) : hD x = logReturn x := by
  funext k
  unfold hD hurstRet logReturn
  by_cases h : x (k + 1) = 0 ∨ x k = 0
  · rw [if_pos h]
    rcases h with h | h <;> simp [h]
  · rw [if_neg h]
    obtain ⟨h1, h2⟩ := not_or.1 h
    simp [h1, h2]

theorem devRS_eq (p : Nat) (r : Nat → R) (j : Nat) :
    devRS (fun k => r (j + (p - 1) - k)) (winMean p r j) p = (cumRange p r j, CMath.sqrt (winVar p r j)) := by
  unfold devRS cumRange winVar
  congr 3
  rw [devSq, ← Finset.sum_range_reflect]
  refine Finset.sum_congr rfl fun k hk => ?_
  have := Finset.mem_range.1 hk
  rw [show j + (p - 1) - (p - 1 - k) = j + k by omega]

theorem hVal_eq (p : Nat) (hp : 1 ≤ p) (x : Nat → R) (j : Nat) : hVal p x j = ⟨hurstExp p x j, 2 - hurstExp p x j⟩ := by
  unfold hVal
  rw [slideS_eq _ _ _ hp, hD_eq, show winSum p (logReturn x) j / (((p : Int)) : R) = winMean p (logReturn x) j by simp [winMean], devRS_eq]
  unfold hurstOut hurstExp
  simp

section
variable [LawfulCeil R] [LawfulTrunc R] [LawfulRound R] [LawfulPow R]

/-- hurst: the Hurst exponent of each window of `p` returns, and 2 minus it. Partial: whole-number periods (`hurst_violates`). -/
theorem hurst_value_partial (o : Nat → R) (p : Nat) (ho : o 0 = ((p : Int) : R)) (hp : 2 ≤ p) (hb : p ≤ 2147483647) :
    Computes hurstBatch o p fun x j => ⟨hurstExp p x j, 2 - hurstExp p x j⟩ :=
  (hurst_run o p ho hp hb (bound_cast _ ho (by omega))).congr fun x j => hVal_eq p (by omega) x j
/-- Partial: whole-number periods (`hurst_violates`). -/
theorem hurst_contract_partial (o : Nat → R) (p : Nat) (ho : o 0 = ((p : Int) : R)) (hp : 2 ≤ p) (hb : p ≤ 2147483647) :
    Contract hurstStart hurstBatch o p := (hurst_value_partial o p ho hp hb).contract (toInt_cast' ho (by omega))
theorem hurst_stream_value_partial (o : Nat → R) (p : Nat) (ho : o 0 = ((p : Int) : R)) (hp : 2 ≤ p) (hb : p ≤ 2147483647) :
    (hurst (R := R)).StreamComputes o p fun x j => ⟨hurstExp p x j, 2 - hurstExp p x j⟩ :=
  StreamComputes.congr (hurst_stream_run o p ho hp hb (bound_cast _ ho (by omega))) fun x j => hVal_eq p (by omega) x j
/-- Partial: whole-number periods (`hurst_stream_violates`). -/
theorem hurst_stream_eq_batch_partial (o : Nat → R) (p : Nat) (ho : o 0 = ((p : Int) : R)) (hp : 2 ≤ p) (hb : p ≤ 2147483647) :
    (hurst (R := R)).StreamEqBatch o p := by
  have : Inhabited R := ⟨0⟩
  exact streamEqBatch_of (hurst_value_partial o p ho hp hb) (hurst_stream_value_partial o p ho hp hb)

/-- Multiplying all prices by the same number changes nothing. -/
theorem hurst_scale_partial (o : Nat → R) (p : Nat) (ho : o 0 = ((p : Int) : R)) (hp : 2 ≤ p) (hb : p ≤ 2147483647) (c : R) (hc : c ≠ 0)
    (x : Nat → R) (N : Nat) : hurstBatch o (pre (fun n => c * x n) N) = hurstBatch o (pre x N) := by
  have e : logReturn (fun n => c * x n) = logReturn x := by
    funext k
    unfold logReturn
    simp only [mul_eq_zero, hc, false_or, mul_div_mul_left _ _ hc]
  rw [hurst_value_partial o p ho hp hb, hurst_value_partial o p ho hp hb]
  unfold hurstExp
  beta_reduce
  rw [e]

/-- The reference guards neither against a zero price nor against a zero range. Where neither occurs it agrees. Partial: whole-number
periods (`hurst_ref_violates`). -/
theorem hurst_ref_eq_batch_partial (o : Nat → R) (p : Nat) (ho : o 0 = ((p : Int) : R)) (hp : 2 ≤ p) (hb : p ≤ 2147483647) (x : Nat → R)
    (N : Nat) (h0 : ∀ n, x n ≠ 0) (hR : ∀ j, cumRange p (logReturn x) j ≠ 0) : hurstRef o (pre x N) = hurstBatch o (pre x N) := by
  rw [hurst_ref_run o p ho hp hb (bound_cast _ ho (by omega)), hurst_value_partial o p ho hp hb]
  congr 3
  funext j
  beta_reduce
  have e : ∀ k, k < p → CMath.log (x (j + p - k) / x (j + p - k - 1)) = logReturn x (j + (p - 1) - k) := by
    intro k hk
    rw [logReturn, if_neg (not_or.2 ⟨h0 _, h0 _⟩), show j + (p - 1) - k + 1 = j + p - k by omega, show j + p - k - 1 = j + (p - 1) - k by omega]
  have d : ∀ mean : R, devRS (fun k => CMath.log (x (j + p - k) / x (j + p - k - 1))) mean p =
      devRS (fun k => logReturn x (j + (p - 1) - k)) mean p := by
    intro mean
    have s1 : ∀ m, m ≤ p → devSum (fun k => CMath.log (x (j + p - k) / x (j + p - k - 1))) mean m =
        devSum (fun k => logReturn x (j + (p - 1) - k)) mean m :=
      fun m hm => Finset.sum_congr rfl fun k hk => by beta_reduce; rw [e k (by have := Finset.mem_range.1 hk; omega)]
    have s2 : devSq (fun k => CMath.log (x (j + p - k) / x (j + p - k - 1))) mean p =
        devSq (fun k => logReturn x (j + (p - 1) - k)) mean p :=
      Finset.sum_congr rfl fun k hk => by beta_reduce; rw [e k (Finset.mem_range.1 hk)]
    unfold devRS winMax winMin
    rw [s2]
    congr 2
    · refine Finset.sup'_congr _ rfl fun k hk => s1 _ ?_
      have := Finset.mem_range.1 hk; omega
    · refine Finset.inf'_congr _ rfl fun k hk => s1 _ ?_
      have := Finset.mem_range.1 hk; omega
  have m : (∑ k ∈ Finset.range p, CMath.log (x (j + p - k) / x (j + p - k - 1))) / ((p : Int) : R) = winMean p (logReturn x) j := by
    unfold winMean winSum
    rw [← Finset.sum_range_reflect]
    congr 1
    · refine Finset.sum_congr rfl fun k hk => ?_
      have := Finset.mem_range.1 hk
      rw [e _ (by omega), show j + (p - 1) - (p - 1 - k) = j + k by omega]
    · simp
  unfold hRef hurstExp
  dsimp only
  rw [d, m, devRS_eq, if_neg (hR j)]
  simp

end

theorem bound_frac [LawfulCeil R] [LawfulTrunc R] [LawfulRound R] {v : R} {p : Nat} (h1 : (p : R) < v) (h2 : v < (p : R) + 1) (hb : p < 2147483647) :
    bound v = .ok ((p + 1 : Nat) : Int) := by
  obtain ⟨n, hn, a, b⟩ := LawfulCeil.ceil_spec v
  have e : n = ((p + 1 : Nat) : Int) := by
    have a' : (n : R) < ((p + 2 : Int) : R) := by push_cast; linarith
    have b' : (((p : Int)) : R) < (n : R) := by push_cast; linarith
    have a'' := Int.cast_lt.1 a'
    have b'' := Int.cast_lt.1 b'
    omega
  unfold bound
  rw [hn, e]
  exact toInt_cast _ (by omega)

theorem hurstWin_err {v : R} {p : Nat} (hp : 1 ≤ p) (hb : bound v = .ok ((p + 1 : Nat) : Int)) (mean : R) (h : Nat → R) (n : Nat) :
    hurstWin v mean (Ring.now h p n).get = .error .assertFail := by
  unfold hurstWin
  rw [hb, bind_ok]
  refine bind_err ?_
  refine forUp_inv_err (fun _ _ => True) 0 p rfl trivial (by omega) (by omega) (fun i t _ hi _ => ?_) (fun t _ => ?_)
  · rw [Ring.now_get_any h p n i i rfl hi, bind_ok]
    exact ⟨_, rfl, trivial⟩
  · rw [Ring.now_get_err h p (by omega) n p (by omega)]
    rfl

/-- With a fractional period the loop asks for one return more than are kept: the bar after the first full window fails an assertion. -/
theorem hurst_violates [LawfulCeil R] [LawfulTrunc R] [LawfulRound R] (o : Nat → R) (p : Nat) (h1 : (p : R) < o 0) (h2 : o 0 < (p : R) + 1)
    (hp : 2 ≤ p) (hb : p < 2147483647) (x : Nat → R) (N : Nat) (hN : p + 1 < N) : hurstBatch o (pre x N) = .error .assertFail := by
  have hc : toInt (o 0) = .ok (p : Int) := toInt_of_within h1.le h2 (by omega)
  have hp2 : (2 : R) ≤ p := by exact_mod_cast hp
  have hv2 : ¬ o 0 < c! 2 := not_lt.2 (by push_cast; linarith)
  unfold hurstBatch
  rw [if_neg hv2, hc, bind_ok, Ring.make_after (hD x) p (by omega), bind_ok, hurstStart, hc, bind_ok]
  refine loopBatch_err (σ := HurstS R) (ω := Hurst R) _ ((hurstLoops_ordered _ _).from _) x
    (fun n => (⟨∑ k ∈ Finset.range (n - 1), hD x k, Ring.after (hD x) p (n - 1)⟩ : HurstS R)) (fun _ => []) .assertFail (p + 1) (by simp)
    (fun n hn => ?_) ?_ N hN
  · simp only [barStep, hurstLoops, List.find?]
    cases n with
    | zero => rw [decide_eq_true (by omega)]; simp
    | succ n =>
      have hcond : (((0 + ((n + 1 : Nat) : Int) : Int) : R) < o 0) := by
        have : ((n + 1 : Nat) : R) ≤ p := by exact_mod_cast (show n + 1 ≤ p by omega)
        push_cast at this ⊢; linarith
      rw [decide_eq_false (by omega), decide_eq_true hcond]
      dsimp only
      rw [show rd (pre x N) (0 + ((n + 1 : Nat) : Int) - 1) = .ok (x n) from rd_at n (by omega) (by omega), bind_ok, Nat.add_sub_cancel,
        Ring.after_set (hD x) p (by omega) n (hurstRet (x (n + 1)) (x n)) rfl, bind_ok, Ring.now_step, Nat.add_sub_cancel,
        Finset.sum_range_succ]
      rfl
  · simp only [barStep, hurstLoops, List.find?]
    have hcond : ¬ (((0 + ((p + 1 : Nat) : Int) : Int) : R) < o 0) := by push_cast; linarith
    rw [decide_eq_false (by omega), decide_eq_false hcond]
    dsimp only
    rw [show rd (pre x N) (0 + ((p + 1 : Nat) : Int) - 1) = .ok (x p) from rd_at p (by omega) (by omega), bind_ok, Nat.add_sub_cancel,
      Ring.after_set (hD x) p (by omega) p (hurstRet (x (p + 1)) (x p)) rfl, bind_ok, hurstWin_err (by omega) (bound_frac h1 h2 hb)]
    rfl
/-- The stream fails the same assertion with a fractional period. -/
theorem hurst_stream_violates [LawfulCeil R] [LawfulTrunc R] [LawfulRound R] (o : Nat → R) (p : Nat) (h1 : (p : R) < o 0)
    (h2 : o 0 < (p : R) + 1) (hp : 2 ≤ p) (hb : p < 2147483647) (x : Nat → R) (N : Nat) (hN : p < N) (chunks : List (List R))
    (hx : chunks.flatten = pre x N) : (hurst (R := R)).session o chunks = .error .assertFail := by
  have hc : toInt (o 0) = .ok (p : Int) := toInt_of_within h1.le h2 (by omega)
  have hp2 : (2 : R) ≤ p := by exact_mod_cast hp
  have hv2 : ¬ o 0 < c! 2 := not_lt.2 (by push_cast; linarith)
  refine session_err (I := hurst) (k := o 0) (p := -(p : Int)) (s0 := (⟨c! 0, Ring.after (hD x) p 0, Ring2.after x 0⟩ : HurstT R)) ?_
    (hurstPhases_ordered _) x (fun n => (⟨∑ k ∈ Finset.range (n - 1), hD x k, Ring.after (hD x) p (n - 1), Ring2.after x n⟩ : HurstT R))
    (fun _ => []) .assertFail p (by simp; rfl) (fun n hn => ?_) ?_ N chunks hx hN
  · simp only [hurst, hurstNew, if_neg hv2, hurstStart, hc, bind_ok]
    rw [Ring.make_after (hD x) p (by omega)]
    rfl
  · simp only [hurst, barStep, hurstPhases, List.find?]
    cases n with
    | zero =>
      have hcond : (((-(p : Int) + ((0 : Nat) : Int) : Int) : R) < -o 0 + c! 1) := by push_cast; linarith
      rw [decide_eq_true hcond]
      dsimp only
      rw [Ring2.after_set_step x 0 rfl]
      rfl
    | succ n =>
      have hcond : ¬ (((-(p : Int) + ((n + 1 : Nat) : Int) : Int) : R) < -o 0 + c! 1) := by
        have : (0 : R) ≤ n := Nat.cast_nonneg n
        push_cast; linarith
      rw [decide_eq_false hcond, decide_eq_true (by omega)]
      have e1 : ((Ring2.after x (n + 1)).set (x (n + 1))).get 1 = .ok (x n) := by rw [Ring2.after_one]; simp [back]
      have e0 : ((Ring2.after x (n + 1)).set (x (n + 1))).cur = x (n + 1) := rfl
      dsimp only
      rw [e1, bind_ok, e0, Nat.add_sub_cancel, Ring.after_set (hD x) p (by omega) n (hurstRet (x (n + 1)) (x n)) rfl, bind_ok, Ring.now_step,
        Nat.add_sub_cancel, Finset.sum_range_succ, Ring2.after_set_step x (n + 1) rfl]
      rfl
  · simp only [hurst, barStep, hurstPhases, List.find?]
    obtain ⟨n, rfl⟩ : ∃ n, p = n + 1 := ⟨p - 1, by omega⟩
    have hcond : ¬ (((-((n + 1 : Nat) : Int) + ((n + 1 : Nat) : Int) : Int) : R) < -o 0 + c! 1) := by
      push_cast at *; linarith
    rw [decide_eq_false hcond, decide_eq_false (by omega)]
    have e1 : ((Ring2.after x (n + 1)).set (x (n + 1))).get 1 = .ok (x n) := by rw [Ring2.after_one]; simp [back]
    have e0 : ((Ring2.after x (n + 1)).set (x (n + 1))).cur = x (n + 1) := rfl
    dsimp only
    rw [e1, bind_ok, e0, Nat.add_sub_cancel, Ring.after_set (hD x) (n + 1) (by omega) n (hurstRet (x (n + 1)) (x n)) rfl, bind_ok,
      hurstWin_err (by omega) (bound_frac h1 h2 hb)]
    rfl
/-- With a fractional period and more than `p` values the reference reads before the input array. -/
theorem hurst_ref_violates [LawfulCeil R] [LawfulTrunc R] [LawfulRound R] (o : Nat → R) (p : Nat) (h1 : (p : R) < o 0) (h2 : o 0 < (p : R) + 1)
    (hp : 2 ≤ p) (hb : p < 2147483647) (x : Nat → R) (N : Nat) (hN : p < N) : hurstRef o (pre x N) = .error .oobRead := by
  have hc : toInt (o 0) = .ok (p : Int) := toInt_of_within h1.le h2 (by omega)
  have hp2 : (2 : R) ≤ p := by exact_mod_cast hp
  have hv2 : ¬ o 0 < c! 2 := not_lt.2 (by push_cast; linarith)
  unfold hurstRef
  rw [if_neg hv2, hurstStart, hc, bind_ok, bind_ok]
  refine bind_err ?_
  refine forUp_err p p (fun _ => []) rfl rfl le_rfl (by simp; omega) (fun i h1 h2 => by omega) ?_
  dsimp only
  rw [bound_frac h1 h2 hb, bind_ok]
  refine bind_err ?_
  refine forUp_inv_err (fun _ _ => True) 0 p rfl trivial (by omega) (by omega) (fun i t _ hi _ => ?_) (fun t _ => ?_)
  · rw [show rd (pre x N) ((p : Int) - (i : Int)) = .ok (x (p - i)) from rd_at _ (by omega) (by omega), bind_ok,
      show rd (pre x N) ((p : Int) - (i : Int) - 1) = .ok (x (p - i - 1)) from rd_at _ (by omega) (by omega)]
    exact ⟨_, rfl, trivial⟩
  · refine bind_err ?_
    rw [show rd (pre x N) ((p : Int) - (p : Int)) = .ok (x 0) from rd_at _ (by omega) (by omega), bind_ok]
    refine bind_err (rd_oob _ _ (by simp))

theorem dev_bounds (p : Nat) (hp : 1 ≤ p) (d : Nat → R) (h0 : ∑ k ∈ range p, d k = 0) (q : R)
    (hq : q = winMax p (fun m => ∑ k ∈ range (m + 1), d k) 0 - winMin p (fun m => ∑ k ∈ range (m + 1), d k) 0) :
    0 ≤ q ∧ (∑ k ∈ range p, d k ^ 2) / (p : R) ≤ q ^ 2 ∧ q ^ 2 ≤ (p : R) ^ 2 * ((∑ k ∈ range p, d k ^ 2) / (p : R)) := by
  have hpos : (0 : R) < p := by exact_mod_cast hp
  generalize hC : (fun m => ∑ k ∈ range (m + 1), d k : Nat → R) = C at *
  have hc : ∀ m, C m = ∑ k ∈ range (m + 1), d k := fun m => by rw [← hC]
  have hle : ∀ a b, a < p → b < p → C a - C b ≤ q := by
    intro a b ha hb
    have u1 := le_winMax p C 0 a (by omega) (by omega)
    have u2 := winMin_le p C 0 b (by omega) (by omega)
    rw [hq]; linarith
  have hq0 : 0 ≤ q := by have := hle 0 0 (by omega) (by omega); linarith
  have hd : ∀ k, k < p → d k ^ 2 ≤ q ^ 2 := by
    intro k hk
    have : ∃ a b, a < p ∧ b < p ∧ d k = C a - C b := by
      cases k with
      | zero => exact ⟨0, p - 1, by omega, by omega, by rw [hc, hc, show p - 1 + 1 = p by omega, h0]; simp⟩
      | succ k => exact ⟨k + 1, k, by omega, by omega, by rw [hc, hc, sum_range_succ _ (k + 1)]; ring⟩
    obtain ⟨a, b, ha, hb, e⟩ := this
    have v1 := hle a b ha hb
    have v2 := hle b a hb ha
    rw [e]
    nlinarith
  refine ⟨hq0, ?_, ?_⟩
  · rw [div_le_iff₀ hpos]
    have := sum_le_card_nsmul (range p) (fun k => d k ^ 2) (q ^ 2) fun k hk => hd k (mem_range.1 hk)
    simp only [card_range, nsmul_eq_mul] at this
    linarith
  · have e : (p : R) ^ 2 * ((∑ k ∈ range p, d k ^ 2) / (p : R)) = (p : R) * ∑ k ∈ range p, d k ^ 2 := by field_simp
    rw [e]
    have key : ∀ a b, a ≤ b → b < p → (C b - C a) ^ 2 ≤ (p : R) * ∑ k ∈ range p, d k ^ 2 := by
      intro a b hab hb
      have e : C b - C a = ∑ k ∈ Ico (a + 1) (b + 1), d k := by
        rw [hc, hc, sum_Ico_eq_sub _ (by omega)]
      rw [e]
      refine le_trans (sq_sum_le_card_mul_sum_sq) ?_
      refine mul_le_mul ?_ ?_ (sum_nonneg fun k _ => sq_nonneg _) hpos.le
      · rw [Nat.card_Ico]; exact_mod_cast (show b + 1 - (a + 1) ≤ p by omega)
      · refine sum_le_sum_of_subset_of_nonneg ?_ fun k _ _ => sq_nonneg _
        intro k hk
        have := mem_Ico.1 hk
        exact mem_range.2 (by omega)
    obtain ⟨a, _, ha, ea⟩ := winMax_mem p hp C 0
    obtain ⟨b, _, hb, eb⟩ := winMin_mem p hp C 0
    rw [hq, ea, eb]
    rcases le_total a b with h | h
    · have := key a b h (by omega); nlinarith
    · exact key b a h (by omega)

/-- The range is at least one and at most `p` standard deviations. -/
theorem cumRange_bounds [LawfulSqrt R] (p : Nat) (hp : 1 ≤ p) (r : Nat → R) (j : Nat) :
    CMath.sqrt (winVar p r j) ≤ cumRange p r j ∧ cumRange p r j ≤ (p : R) * CMath.sqrt (winVar p r j) ∧ 0 ≤ winVar p r j := by
  have hpos : (0 : R) < p := by exact_mod_cast hp
  have hs : ∀ f : Nat → R, ∑ k ∈ range p, f (j + (p - 1) - k) = ∑ k ∈ range p, f (j + k) := by
    intro f
    rw [← Finset.sum_range_reflect]
    refine Finset.sum_congr rfl fun k hk => ?_
    have := Finset.mem_range.1 hk
    rw [show j + (p - 1) - (p - 1 - k) = j + k by omega]
  obtain ⟨q0, q1, q2⟩ := dev_bounds p hp (fun k => r (j + (p - 1) - k) - winMean p r j) (by
    rw [sum_sub_distrib, hs, sum_const, card_range, nsmul_eq_mul, winMean, winSum]; field_simp; ring) (cumRange p r j) rfl
  have hv : (∑ k ∈ range p, (r (j + (p - 1) - k) - winMean p r j) ^ 2) / (p : R) = winVar p r j := by
    rw [hs fun i => (r i - winMean p r j) ^ 2]; rfl
  rw [hv] at q1 q2
  have hv0 : 0 ≤ winVar p r j := div_nonneg (sum_nonneg fun k _ => sq_nonneg _) hpos.le
  have s0 := LawfulSqrt.sqrt_nonneg _ hv0
  have s1 := LawfulSqrt.sqrt_sq _ hv0
  refine ⟨?_, ?_, hv0⟩
  · refine le_trans (le_abs_self _) (abs_le_of_sq_le_sq ?_ q0)
    rw [sq, s1]; exact q1
  · refine le_trans (le_abs_self _) (abs_le_of_sq_le_sq ?_ (mul_nonneg hpos.le s0))
    rw [mul_pow, sq (CMath.sqrt _), s1]; exact q2

/-! mesastoch -/

theorem mesaK_eq (m : Nat) : (mesaConst (m : Int) : MesaK R) = ⟨mesaAlpha (m : R), 1 - mesaC2 - mesaC3, mesaC2, mesaC3⟩ := by
  have e1 : deg2rad (c! 707 / c! 1000 * c! 360 / (((m : Int)) : R)) = 707 / 1000 * 360 / (m : R) * (3141592 / 1000000) / 180 := by
    unfold deg2rad; push_cast; rfl
  have e2 : deg2rad (c! 1414 / c! 1000 * c! 180 / c! 10 : R) = 1414 / 1000 * 180 / 10 * (3141592 / 1000000) / 180 := by
    unfold deg2rad; push_cast; rfl
  have e3 : CMath.exp (-(c! 1414 / c! 1000 : R) * (c! 3141459 / c! 1000000) / c! 10) = mesaDecay := by
    unfold mesaDecay; push_cast; rfl
  unfold mesaConst mesaAlpha mesaC2 mesaC3
  simp only [e1, e2, e3]
  simp

theorem mesaH_spec (a c1 c2 c3 : R) (x : Nat → R) : HighPass a x (mesaH ⟨a, c1, c2, c3⟩ x) := by
  intro t
  rw [mesaH, rec2_eq]
  unfold mesaHP back
  simp only [Int.cast_zero, Int.cast_one, Int.cast_ofNat]
  ring
theorem smooth_spec (a c2 c3 : R) (u : Nat → R) :
    Smooths c2 c3 u (rec2 fun t f1 f2 => mesaSmooth ⟨a, 1 - c2 - c3, c2, c3⟩ (u t) (back u t 1) f1 f2) := by
  intro t
  rw [rec2_eq]
  unfold mesaSmooth back
  simp only [Int.cast_zero, Int.cast_ofNat]

theorem mesaSt_eq (k : MesaK R) (p : Nat) (x : Nat → R) (j : Nat) : mesaSt k p x j = filtStoch p (mesaF k x) (p + j) := by
  unfold mesaSt filtStoch
  rw [recMin_full _ _ _ (by omega), recMax_full _ _ _ (by omega)]
  simp [sub_eq_zero]

/-- mesastoch: the prices pass a high-pass and a smoothing filter; the output smooths, with the same filter, the stochastic of the
result. Partial: periods from 3 on (`mesastoch_violates`), except the two largest (`mesastoch_overflow`). -/
theorem mesastoch_value_partial (o : Nat → R) (p m : Nat) (hcp : toInt (o 0) = .ok (p : Int)) (hcm : toInt (o 1) = .ok (m : Int)) (hp : 3 ≤ p)
    (hb : p ≤ 2147483645) (hm : 1 ≤ m) (x : Nat → R) (N : Nat) : ∃ h f v : Nat → R, HighPass (mesaAlpha (m : R)) x h ∧
      Smooths mesaC2 mesaC3 h f ∧ Smooths mesaC2 mesaC3 (fun j => filtStoch p f (p + j)) v ∧
      mesastochBatch o (pre x N) = .ok (.okay, pre v (N - (p + 2))) := by
  refine ⟨mesaH (mesaConst (m : Int)) x, mesaF (mesaConst (m : Int)) x, _, ?_, ?_, ?_, mesastoch_run o p m hcp hcm hp hm (mesastochStart_ok o p hcp hb) x N⟩
  · rw [mesaK_eq]; exact mesaH_spec _ _ _ _ x
  · rw [mesaK_eq]; exact smooth_spec _ _ _ _
  · rw [show (fun j => filtStoch p (mesaF (mesaConst (m : Int)) x) (p + j)) = mesaSt (mesaConst (m : Int)) p x from
      funext fun j => (mesaSt_eq _ p x j).symm]
    rw [mesaK_eq]
    exact smooth_spec _ _ _ _
/-- Partial: periods from 3 on (`mesastoch_violates`), except the two largest (`mesastoch_overflow`). -/
theorem mesastoch_contract_partial (o : Nat → R) (p m : Nat) (hcp : toInt (o 0) = .ok (p : Int)) (hcm : toInt (o 1) = .ok (m : Int))
    (hp : 3 ≤ p) (hb : p ≤ 2147483645) (hm : 1 ≤ m) : Contract mesastochStart mesastochBatch o (p + 2) :=
  (mesastoch_run o p m hcp hcm hp hm (mesastochStart_ok o p hcp hb)).contract (mesastochStart_ok o p hcp hb)
theorem mesastoch_stream_eq_batch_partial (o : Nat → R) (p m : Nat) (hcp : toInt (o 0) = .ok (p : Int)) (hcm : toInt (o 1) = .ok (m : Int))
    (hp : 3 ≤ p) (hb : p ≤ 2147483645) (hm : 1 ≤ m) : (mesastoch (R := R)).StreamEqBatch o (p + 2) := by
  have : Inhabited R := ⟨0⟩
  exact streamEqBatch_of (mesastoch_run o p m hcp hcm hp hm (mesastochStart_ok o p hcp hb))
    (mesastoch_stream_run o p m hcp hcm hp hm (mesastochStart_ok o p hcp hb))
/-- The filters have only one output: the value theorem determines the result. -/
theorem highPass_unique {a : R} {x y z : Nat → R} (h1 : HighPass a x y) (h2 : HighPass a x z) : y = z := by
  funext t
  induction t using Nat.strong_induction_on with
  | _ t ih =>
    rw [h1 t, h2 t]
    by_cases c1 : 1 ≤ t
    · rw [if_pos c1, if_pos c1, ih _ (show t - 1 < t by omega)]
      by_cases c2 : 2 ≤ t
      · rw [if_pos c2, if_pos c2, ih _ (show t - 2 < t by omega)]
      · rw [if_neg c2, if_neg c2]
    · rw [if_neg c1, if_neg c1, if_neg (by omega), if_neg (by omega)]
theorem smooths_unique {c2 c3 : R} {u y z : Nat → R} (h1 : Smooths c2 c3 u y) (h2 : Smooths c2 c3 u z) : y = z := by
  funext t
  induction t using Nat.strong_induction_on with
  | _ t ih =>
    rw [h1 t, h2 t]
    by_cases c1 : 1 ≤ t
    · rw [if_pos c1, if_pos c1, if_pos c1, ih _ (show t - 1 < t by omega)]
      by_cases c2 : 2 ≤ t
      · rw [if_pos c2, if_pos c2, ih _ (show t - 2 < t by omega)]
      · rw [if_neg c2, if_neg c2]
    · rw [if_neg c1, if_neg c1, if_neg c1, if_neg (by omega), if_neg (by omega)]
/-- What is smoothed at the end lies between 0 and 1. -/
theorem filtStoch_bounds (p : Nat) (hp : 1 ≤ p) (f : Nat → R) (t : Nat) (ht : p ≤ t + 1) : 0 ≤ filtStoch p f t ∧ filtStoch p f t ≤ 1 := by
  have h1 := winMin_le p f (t + 1 - p) t (by omega) (by omega)
  have h2 := le_winMax p f (t + 1 - p) t (by omega) (by omega)
  unfold filtStoch
  split_ifs
  · exact ⟨le_rfl, zero_le_one⟩
  · exact ⟨div_nonneg (by linarith) (by linarith), div_le_one_of_le₀ (by linarith) (by linarith)⟩

/-- With at least `p + 2` prices (`mesastoch_ref_violates`) the reference agrees. It divides by the range without looking at it: exact
division by zero gives the 0 the batch call writes, floating point division gives NaN there. -/
theorem mesastoch_ref_eq_batch_partial (o : Nat → R) (p m : Nat) (hcp : toInt (o 0) = .ok (p : Int)) (hcm : toInt (o 1) = .ok (m : Int))
    (hp : 3 ≤ p) (hb : p ≤ 2147483645) (hm : 1 ≤ m) (x : Nat → R) (N : Nat) (hN : p + 2 ≤ N) :
    mesastochRef o (pre x N) = mesastochBatch o (pre x N) := by
  rw [mesastoch_ref_run o p m hcp hcm hp hm (mesastochStart_ok o p hcp hb) x N hN,
    mesastoch_run o p m hcp hcm hp hm (mesastochStart_ok o p hcp hb)]
/-- With fewer than `p + 2` prices the reference reads past the end of its input. -/
theorem mesastoch_ref_violates (o : Nat → R) (p m : Nat) (hcp : toInt (o 0) = .ok (p : Int)) (hcm : toInt (o 1) = .ok (m : Int))
    (hp : 3 ≤ p) (hb : p ≤ 2147483645) (hm : 1 ≤ m) (x : Nat → R) (N : Nat) (hN : N < p + 2) :
    mesastochRef o (pre x N) = .error .oobRead := by
  unfold mesastochRef
  rw [hcp, bind_ok, hcm, bind_ok, if_neg (by omega), if_neg (by omega), mesastochStart_ok o p hcp hb, bind_ok]
  dsimp only
  rw [Int.toNat_natCast]
  refine bind_err ?_
  refine forUp_inv_err (fun i s => MesaRefInv (mesaConst (m : Int)) p x (i - 2) s) 2 (max 2 N) rfl (mesaRef_zero _ p x) (by omega) (by omega)
    (fun i s h1 h2 H => ?_) (fun s H => ?_)
  · obtain ⟨t, rfl⟩ : ∃ t : Nat, i = t + 2 := ⟨i - 2, by omega⟩
    rw [show t + 2 - 2 = t by omega] at H
    refine ⟨_, mesaRefStep_ok hp (by omega) H, ?_⟩
    rw [show t + 2 + 1 - 2 = t + 1 by omega]
    refine ⟨rfl, rfl, ?_, ?_⟩
    · dsimp only; rw [H.stoc, Nat.sub_eq_zero_of_le (show t ≤ p by omega), Nat.sub_eq_zero_of_le (show t + 1 ≤ p by omega)]
    · dsimp only; rw [H.res, Nat.sub_eq_zero_of_le (show t ≤ p by omega), Nat.sub_eq_zero_of_le (show t + 1 ≤ p by omega)]
  · unfold mesaRefStep
    rw [rd_oob _ _ (by simp)]
    rfl

/-! frama -/

section
variable [LawfulTrunc R] [LawfulRound R]

theorem frama_chunks (o : Nat → R) : (frama (R := R)).ChunkInvariant o := by
  refine chunkInvariant_of' fun k p s h => ?_
  simp only [frama, framaNew] at h
  by_cases h0 : o 0 < c! 1
  · rw [if_pos h0] at h; cases h
  rw [if_neg h0] at h
  cases hc : toInt (o 0) with
  | error e => rw [hc] at h; cases h
  | ok ip =>
    rw [hc, bind_ok] at h
    by_cases hodd : ip % 2 ≠ 0
    · rw [if_pos hodd] at h; cases h
    rw [if_neg hodd, framaStart, bind_ok] at h
    cases h1 : toInt (o 0 / c! 2) with
    | error e => rw [h1] at h; cases h
    | ok half =>
      cases h2 : bound (o 0 / c! 2) with
      | error e => rw [h1, h2] at h; cases h
      | ok halfN =>
        rw [h1, h2] at h
        have hge : (1 : R) ≤ o 0 := by simpa using not_lt.1 h0
        have hr := LawfulRound.trunc_nonneg (o 0) (by linarith)
        rw [(toInt_trunc hc).1] at hr
        have hip : 0 ≤ ip := by
          have : (((0 : Int)) : R) < ((ip + 1 : Int) : R) := by push_cast; linarith [hr.2]
          have := Int.cast_lt.1 this
          omega
        cases h
        exact framaPhases_ordered _ _ _ _ _ hr.1 hip

variable [LawfulCeil R]

/-- frama: the fractal adaptive average. Partial: whole-number periods (`frama_violates`). -/
theorem frama_value_partial (o : Nat → R) (h : Nat) (ho : o 0 = (((2 * h : Nat) : Int) : R)) (hh : 1 ≤ h) (hb : 2 * h ≤ 2147483647)
    (h2 : ¬ o 1 < c! 2) : Computes framaBatch o 0 fun x => framaAvg h (CMath.log (2 / (1 + o 1))) x := by
  have := frama_run o h ho hh hb h2 (bound_cast _ ho (by omega))
  simpa using this
/-- Partial: whole-number periods (`frama_violates`). -/
theorem frama_contract_partial (o : Nat → R) (h : Nat) (ho : o 0 = (((2 * h : Nat) : Int) : R)) (hh : 1 ≤ h) (hb : 2 * h ≤ 2147483647)
    (h2 : ¬ o 1 < c! 2) : Contract framaStart framaBatch o 0 := (frama_value_partial o h ho hh hb h2).contract rfl
theorem frama_half {v : R} (h : Nat) (ho : v = (((2 * h : Nat) : Int) : R)) : v / c! 2 = ((h : Int) : R) := by
  rw [ho]; push_cast; field_simp
/-- The stream needs no condition on the average period: it does not check it. -/
theorem frama_stream_value_partial (o : Nat → R) (h : Nat) (ho : o 0 = (((2 * h : Nat) : Int) : R)) (hh : 1 ≤ h) (hb : 2 * h ≤ 2147483647) :
    (frama (R := R)).StreamComputes o 0 fun x => framaAvg h (CMath.log (2 / (1 + o 1))) x := by
  have := frama_stream_run o h ho hh hb (bound_cast _ (frama_half h ho) (by omega))
  simpa using this
/-- Partial: whole-number periods, valid average periods (`frama_stream_ne_batch`). -/
theorem frama_stream_eq_batch_partial (o : Nat → R) (h : Nat) (ho : o 0 = (((2 * h : Nat) : Int) : R)) (hh : 1 ≤ h) (hb : 2 * h ≤ 2147483647)
    (h2 : ¬ o 1 < c! 2) : (frama (R := R)).StreamEqBatch o 0 := by
  have : Inhabited R := ⟨0⟩
  exact streamEqBatch_of (frama_value_partial o h ho hh hb h2) (frama_stream_value_partial o h ho hh hb)
/-- An average period below 2 is refused by the batch call and accepted by the stream. -/
theorem frama_stream_ne_batch (o : Nat → R) (h : Nat) (ho : o 0 = (((2 * h : Nat) : Int) : R)) (hh : 1 ≤ h) (hb : 2 * h ≤ 2147483647)
    (h2 : o 1 < c! 2) : Refuses framaBatch o ∧ (frama (R := R)).StreamComputes o 0 fun x => framaAvg h (CMath.log (2 / (1 + o 1))) x :=
  ⟨frama_refuses o (Or.inr (Or.inl h2)), frama_stream_value_partial o h ho hh hb⟩

theorem trunc_of_within {v : R} {q : Nat} (h1 : (q : R) ≤ v) (h2 : v < (q : R) + 1) : CMath.trunc v = (q : Int) := by
  have h0 : 0 ≤ v := le_trans (Nat.cast_nonneg q) h1
  have h := LawfulRound.trunc_nonneg v h0
  have a : ((CMath.trunc v : Int) : R) < ((q + 1 : Int) : R) := by push_cast; linarith [h.1]
  have b : ((q : Int) : R) < ((CMath.trunc v + 1 : Int) : R) := by push_cast; linarith [h.2]
  have a' := Int.cast_lt.1 a
  have b' := Int.cast_lt.1 b
  omega
/-- With a fractional period above an even number the first loop writes one value too many, so that with more bars than that the last
write is past the end of the output. -/
theorem frama_violates (o : Nat → R) (h : Nat) (h1 : ((2 * h : Nat) : R) < o 0) (h2 : o 0 < ((2 * h : Nat) : R) + 1) (hh : 1 ≤ h)
    (hb : 2 * h < 2147483647) (ha : ¬ o 1 < c! 2) (x : Nat → HL R) (N : Nat) (hN : 2 * h < N) :
    framaBatch o (pre x N) = .error .oobWrite := by
  refine frama_frac o h hh (toInt_of_within h1.le h2 (by omega)) (toInt_of_within ?_ ?_ (by omega)) ha (bound_frac h1 h2 hb) (fun i hi => ?_) x N hN
  · push_cast at *; linarith
  · push_cast at *; linarith
  · refine trunc_of_within ?_ ?_ <;> rw [Nat.cast_sub hi] <;> push_cast at * <;> linarith

end

theorem fractalWeight_bounds (h : Nat) (w : R) (x : Nat → HL R) (j : Nat) : 1 / 100 ≤ fractalWeight h w x j ∧ fractalWeight h w x j ≤ 1 :=
  ⟨le_min (by norm_num) (le_max_left _ _), min_le_left _ _⟩

theorem framaAvg_bounds (h : Nat) (w : R) (x : Nat → HL R) (lo hi : R) (n : Nat)
    (hx : ∀ k, k ≤ n → lo ≤ ((x k).high + (x k).low) / 2 ∧ ((x k).high + (x k).low) / 2 ≤ hi) :
    lo ≤ framaAvg h w x n ∧ framaAvg h w x n ≤ hi := by
  induction n with
  | zero => exact hx 0 le_rfl
  | succ n ih =>
    rw [framaAvg]
    split_ifs
    · exact hx _ le_rfl
    · have hw := fractalWeight_bounds h w x (n + 2 - 2 * h)
      have := convex_bounds (a := fractalWeight h w x (n + 2 - 2 * h)) (by linarith [hw.1, show (0 : R) ≤ 1 / 100 by norm_num]) hw.2
        (ih fun k hk => hx k (by omega)) (hx (n + 1) le_rfl)
      constructor
      · linarith [this.1]
      · linarith [this.2]

/-- Every output of frama lies within any bounds of the middles of the bars so far. -/
theorem frama_bounds_partial [LawfulTrunc R] [LawfulRound R] [LawfulCeil R] (o : Nat → R) (h : Nat) (ho : o 0 = (((2 * h : Nat) : Int) : R))
    (hh : 1 ≤ h) (hb : 2 * h ≤ 2147483647) (h2 : ¬ o 1 < c! 2) (x : Nat → HL R) (N : Nat) :
    ∃ v : Nat → R, framaBatch o (pre x N) = .ok (.okay, pre v N) ∧ ∀ (n : Nat) (lo hi : R),
      (∀ k, k ≤ n → lo ≤ ((x k).high + (x k).low) / 2 ∧ ((x k).high + (x k).low) / 2 ≤ hi) → lo ≤ v n ∧ v n ≤ hi :=
  ⟨_, frama_value_partial o h ho hh hb h2 x N, fun n lo hi hx => framaAvg_bounds h _ x lo hi n hx⟩

theorem rangePerBar_double (h : Nat) (hh : 1 ≤ h) (x : Nat → HL R) (j : Nat) :
    rangePerBar h x (j + h) + rangePerBar h x j ≤ 4 * rangePerBar (2 * h) x j := by
  have hpos : (0 : R) < h := by exact_mod_cast hh
  unfold rangePerBar
  rw [two_mul h, winMax_join h h hh hh, winMin_join h h hh hh, ← add_div, mul_div_assoc', div_le_div_iff₀ hpos (by push_cast; linarith)]
  push_cast
  generalize winMax h (fun i => (x i).high) j = a
  generalize winMax h (fun i => (x i).high) (j + h) = b
  generalize winMin h (fun i => (x i).low) j = c
  generalize winMin h (fun i => (x i).low) (j + h) = d
  have e1 := le_max_left a b
  have e2 := le_max_right a b
  have e3 := min_le_left c d
  have e4 := min_le_right c d
  nlinarith

end Exact

/-! With the real logarithm and exponential. -/

/-- The Hurst exponent lies between 0 and 1, the fractal dimension between 1 and 2. -/
theorem hurst_range_partial (o : Nat → ℝ) (p : Nat) (ho : o 0 = ((p : Int) : ℝ)) (hp : 2 ≤ p) (hb : p ≤ 2147483647) (x : Nat → ℝ) (N : Nat) :
    ∃ v : Nat → Hurst ℝ, hurstBatch o (pre x N) = .ok (.okay, pre v (N - p)) ∧
      ∀ j, (0 ≤ (v j).hurst ∧ (v j).hurst ≤ 1) ∧ 1 ≤ (v j).dim ∧ (v j).dim ≤ 2 := by
  refine ⟨_, hurst_value_partial o p ho hp hb x N, fun j => ?_⟩
  have key : 0 ≤ hurstExp p x j ∧ hurstExp p x j ≤ 1 := by
    unfold hurstExp
    by_cases h : cumRange p (logReturn x) j = 0
    · rw [if_pos h]; exact ⟨le_rfl, zero_le_one⟩
    rw [if_neg h]
    obtain ⟨b1, b2, b3⟩ := cumRange_bounds p (by omega) (logReturn x) j
    have s0 := LawfulSqrt.sqrt_nonneg _ b3
    have hS : 0 < CMath.sqrt (winVar p (logReturn x) j) := by
      rcases s0.lt_or_eq with h' | h'
      · exact h'
      · rw [← h'] at b1 b2; exact absurd (le_antisymm (by simpa using b2) b1) h
    have hp' : (2 : ℝ) ≤ p := by exact_mod_cast hp
    have q1 : 1 ≤ cumRange p (logReturn x) j / CMath.sqrt (winVar p (logReturn x) j) := (one_le_div hS).2 b1
    have q2 : cumRange p (logReturn x) j / CMath.sqrt (winVar p (logReturn x) j) ≤ p := (div_le_iff₀ hS).2 b2
    have l : 0 < Real.log (p : ℝ) := Real.log_pos (by linarith)
    exact ⟨div_nonneg (Real.log_nonneg q1) l.le, (div_le_one l).2 (Real.log_le_log (by linarith) q2)⟩
  exact ⟨key, by linarith [key.2], by linarith [key.1]⟩

/-- The fractal dimension is never above 2. -/
theorem fractalDim_le_two (h : Nat) (hh : 1 ≤ h) (x : Nat → HL ℝ) (j : Nat) : fractalDim h x j ≤ 2 := by
  unfold fractalDim
  split_ifs with hpos
  · obtain ⟨a, b, c⟩ := hpos
    have l2 : 0 < Real.log 2 := Real.log_pos (by norm_num)
    show (Real.log _ - Real.log _) / Real.log 2 ≤ 2
    rw [div_le_iff₀ l2]
    have : Real.log (rangePerBar h x (j + h) + rangePerBar h x j) ≤ Real.log (4 * rangePerBar (2 * h) x j) :=
      Real.log_le_log (by linarith) (rangePerBar_double h hh x j)
    rw [Real.log_mul (by norm_num) (ne_of_gt c), show (4 : ℝ) = 2 ^ 2 by norm_num, Real.log_pow] at this
    push_cast at this
    linarith
  · norm_num

/-- The weight of the newest bar is never below that of an exponential average over `average_period` bars. -/
theorem fractalWeight_ge (h : Nat) (hh : 1 ≤ h) (a : ℝ) (ha : 2 ≤ a) (x : Nat → HL ℝ) (j : Nat) :
    2 / (1 + a) ≤ fractalWeight h (CMath.log (2 / (1 + a))) x j := by
  have hpos : 0 < 2 / (1 + a) := by positivity
  have hle : 2 / (1 + a) ≤ 1 := (div_le_one (by linarith)).2 (by linarith)
  have hlog : Real.log (2 / (1 + a)) ≤ 0 := Real.log_nonpos hpos.le hle
  show 2 / (1 + a) ≤ min 1 (max (1 / 100) (Real.exp (Real.log (2 / (1 + a)) * (fractalDim h x j - 1))))
  refine le_min hle (le_max_of_le_right ?_)
  have e : 2 / (1 + a) = Real.exp (Real.log (2 / (1 + a))) := (Real.exp_log (x := (2 / (1 + a) : ℝ)) hpos).symm
  have hd := fractalDim_le_two h hh x j
  calc 2 / (1 + a) = Real.exp (Real.log (2 / (1 + a))) := e
    _ ≤ Real.exp (Real.log (2 / (1 + a)) * (fractalDim h x j - 1)) := Real.exp_le_exp.2 (by nlinarith)

/-! Concrete cases: the hypotheses above are met, and the disagreements are real. -/

example : hurstBatch (opts [2]) [1, 2, 4, (8 : Rat)] = .ok (.okay, [⟨0, 2⟩, ⟨0, 2⟩]) ∧
    hurstBatch (opts [5/2]) [1, 2, 4, (8 : Rat)] = .error .assertFail ∧ hurstBatch (opts [5/2]) [1, 2, (4 : Rat)] = .ok (.okay, []) ∧
    hurstRef (opts [5/2]) [1, 2, 4, (8 : Rat)] = .error .oobRead ∧
    (hurst (R := Rat)).session (opts [5/2]) [[1, 2], [4, 8]] = .error .assertFail := by decide +kernel
/-- Prices for which the hypotheses of `hurst_ref_eq_batch_partial` hold: doubling and halving in turn. -/
example : let x : Nat → ℝ := fun n => if n % 2 = 0 then 1 else 2
    (∀ n, x n ≠ 0) ∧ ∀ j, cumRange 2 (logReturn x) j ≠ 0 := by
  intro x
  have hx : ∀ n, x n ≠ 0 := fun n => by
    show (if n % 2 = 0 then (1 : ℝ) else 2) ≠ 0
    split_ifs <;> norm_num
  refine ⟨hx, fun j => ?_⟩
  have l2 : 0 < Real.log 2 := Real.log_pos (by norm_num)
  have r : ∀ k, logReturn x k = if k % 2 = 0 then Real.log 2 else -Real.log 2 := by
    intro k
    rw [logReturn, if_neg (not_or.2 ⟨hx _, hx _⟩)]
    show Real.log ((if (k + 1) % 2 = 0 then (1 : ℝ) else 2) / (if k % 2 = 0 then 1 else 2)) = _
    by_cases h : k % 2 = 0
    · rw [if_neg (by omega), if_pos h, if_pos h, div_one]
    · rw [if_pos (by omega), if_neg h, if_neg h, one_div, Real.log_inv]
  have e : cumRange 2 (logReturn x) j = max (cumDev 2 (logReturn x) j 1) (cumDev 2 (logReturn x) j 2) -
      min (cumDev 2 (logReturn x) j 1) (cumDev 2 (logReturn x) j 2) := by
    unfold cumRange
    rw [winMax_grow 0, winMin_grow 0]
    simp [winMax_one', winMin_one']
  have c1 : cumDev 2 (logReturn x) j 1 = logReturn x (j + 1) := by
    simp only [cumDev, sum_range_one, winMean, winSum, sum_range_succ, sum_range_zero, r]
    by_cases h : j % 2 = 0
    · simp [h, show (j + 1) % 2 = 1 by omega]
    · simp [show j % 2 = 1 by omega, show (j + 1) % 2 = 0 by omega]
  have c2 : cumDev 2 (logReturn x) j 2 = 0 := by
    simp only [cumDev, winMean, winSum, sum_range_succ, sum_range_zero]
    simp
    ring
  rw [e, c1, c2, r]
  split_ifs
  · rw [max_eq_left l2.le, min_eq_right l2.le]; simp; norm_num
  · rw [max_eq_right (by linarith), min_eq_left (by linarith)]; simp; norm_num
example : mesastochBatch (opts [3, 10]) [1, 2, 4, 5, 3, (2 : Rat)] = .ok (.okay, [0]) := by decide +kernel
example : mesastochBatch (opts [2, 10]) [1, 2, (4 : Rat)] = .error .assertFail ∧
    mesastochRef (opts [3, 10]) [1, 2, 4, (5 : Rat)] = .error .oobRead := by decide +kernel
example : framaBatch (opts [2, 2]) [⟨3, 1⟩, ⟨5, 2⟩, ⟨4, 2⟩, ⟨7, (4 : Rat)⟩] = .ok (.okay, [2, 7/2, 3, 11/2]) ∧
    framaBatch (opts [5/2, 2]) [⟨3, 1⟩, ⟨5, 2⟩, ⟨4, (2 : Rat)⟩] = .error .oobWrite ∧
    (frama (R := Rat)).session (opts [2, 0]) [[⟨3, 1⟩, ⟨5, 2⟩], [⟨4, 2⟩, ⟨7, 4⟩]] = .ok (.okay, 4, [2, 7/2, 3, 11/2]) := by decide +kernel

end Verif
