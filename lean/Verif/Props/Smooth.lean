/-
C28 (er) and C30 (dwma, pwma, swma, t3, copp): values, ranges, contracts, streams and reference implementations.
-/
import Verif.Proof.SmoothField
import Verif.Core.RatInst
import Verif.Core.RealInst

namespace Verif
open Spec Finset
set_option linter.unusedSectionVars false
set_option linter.unusedSimpArgs false

section Any
variable {R : Type} [Num R]

/-! ### Any arithmetic -/

theorem er_contract (o : Nat → R) (p : Nat) (hc : toInt (o 0) = .ok (p : Int)) (hp : 1 ≤ p) :
    Contract erStart erBatch o p := (er_run o p hc hp).contract (by simp [erStart, hc])
theorem er_refuses (o : Nat → R) (p : Int) (hc : toInt (o 0) = .ok p) (hp : p < 1) :
    Refuses erBatch o ∧ Refuses erRef o ∧ (er (R := R)).NewRefuses o :=
  ⟨fun xs => by simp [erBatch, hc, hp], fun xs => by simp [erRef, hc, hp], by
    simp [Indicator.NewRefuses, er, erNew, hc, hp]⟩
theorem er_chunks (o : Nat → R) : (er (R := R)).ChunkInvariant o := chunkInvariant_of erPhases_ordered o
/-- er in any arithmetic: the stream writes bit for bit what the batch call writes.
Partial: `period + 1` overflows for the largest period (`er_stream_overflow`). -/
theorem er_stream_eq_batch_partial (o : Nat → R) (p : Nat) (hc : toInt (o 0) = .ok (p : Int)) (hp : 1 ≤ p)
    (hb : p < 2147483647) : (er (R := R)).StreamEqBatch o p :=
  streamEqBatch_of (er_run o p hc hp) (er_stream_run o p hc hp hb)
/-- The largest period: `period + 1`, the size of the stream's ring, is not an `int`. -/
theorem er_stream_overflow (o : Nat → R) (hc : toInt (o 0) = .ok 2147483647) :
    (er (R := R)).new o = .error .intRange := by
  have hb : i32 (2147483647 + 1) = .error .intRange := by unfold i32; rw [if_neg (by omega)]
  show erNew o = _
  unfold erNew erStart
  rw [hc, bind_ok, if_neg (by omega), bind_ok, hb]; rfl

theorem swma_refuses (o : Nat → R) (p : Int) (hc : toInt (o 0) = .ok p) (hp : p < 1) :
    Refuses swmaBatch o ∧ Refuses swmaRef o ∧ (swma (R := R)).NewRefuses o :=
  ⟨fun xs => by simp [swmaBatch, hc, hp], fun xs => by simp [swmaRef, hc, hp], by
    simp [Indicator.NewRefuses, swma, swmaNew, hc, hp]⟩
/-- Periods for which the sine weights (nearly) cancel are refused. -/
theorem swma_refuses_cancelling (o : Nat → R) (p : Nat) (hc : toInt (o 0) = .ok (p : Int)) (hb : p < 2147483647)
    (h : p % 6 = 0 ∨ p % 6 = 5) : Refuses swmaBatch o ∧ Refuses swmaRef o ∧ (swma (R := R)).NewRefuses o := by
  by_cases hp : (p : Int) < 1
  · exact swma_refuses o p hc hp
  have hbad := swmaBad_true p hb h
  refine ⟨fun xs => ?_, fun xs => ?_, ?_⟩
  · simp only [swmaBatch, hc, hp, bind_ok, hbad, if_true, if_false]; rfl
  · simp only [swmaRef, hc, hp, bind_ok, hbad, if_true, if_false]; rfl
  · simp only [Indicator.NewRefuses, swma, swmaNew, hc, hp, bind_ok, hbad, if_true, if_false]; rfl
theorem swma_contract (o : Nat → R) (p : Nat) (hc : toInt (o 0) = .ok (p : Int)) (hp : 1 ≤ p) (hb : p < 2147483647)
    (h1 : p % 6 ≠ 0) (h2 : p % 6 ≠ 5) : Contract swmaStart swmaBatch o (p - 1) :=
  (swma_run o p hc hp hb h1 h2).contract (by simp only [swmaStart, hc, bind_ok, startM1_ok hc hp])
theorem swma_chunks (o : Nat → R) : (swma (R := R)).ChunkInvariant o := chunkInvariant_of swmaPhases_ordered o
/-- swma in any arithmetic: the stream writes bit for bit what the batch call writes. -/
theorem swma_stream_eq_batch (o : Nat → R) (p : Nat) (hc : toInt (o 0) = .ok (p : Int)) (hp : 1 ≤ p) (hb : p < 2147483647)
    (h1 : p % 6 ≠ 0) (h2 : p % 6 ≠ 5) : (swma (R := R)).StreamEqBatch o (p - 1) :=
  streamEqBatch_of (swma_run o p hc hp hb h1 h2) (swma_stream_run o p hc hp hb h1 h2)
/-- For the largest `int` the check itself overflows. -/
theorem swma_overflow (o : Nat → R) (hc : toInt (o 0) = .ok 2147483647) (xs : List R) :
    swmaBatch o xs = .error .intRange ∧ (swma (R := R)).new o = .error .intRange := by
  have hb : swmaBad 2147483647 = .error .intRange := bind_err (by unfold i32; rw [if_neg (by omega)])
  constructor
  · unfold swmaBatch
    rw [hc, bind_ok, if_neg (by omega), hb]; rfl
  · show swmaNew o = _
    unfold swmaNew
    rw [hc, bind_ok, if_neg (by omega), hb]; rfl

theorem t3_contract (o : Nat → R) (h0 : ¬ o 0 < c! 1) (h1 : ¬ o 1 < c! 0) : Contract t3Start t3Batch o 0 :=
  (t3_run o h0 h1).contract rfl
theorem t3_refuses (o : Nat → R) (h : o 0 < c! 1 ∨ o 1 < c! 0) :
    Refuses t3Batch o ∧ Refuses t3Ref o ∧ (t3 (R := R)).NewRefuses o := by
  by_cases h0 : o 0 < c! 1
  · exact ⟨fun xs => by simp [t3Batch, h0], fun xs => by simp [t3Ref, h0], by simp [Indicator.NewRefuses, t3, t3New, h0]⟩
  · have h1 := h.resolve_left h0
    exact ⟨fun xs => by simp [t3Batch, h0, h1], fun xs => by simp [t3Ref, h0, h1], by
      simp [Indicator.NewRefuses, t3, t3New, h0, h1]⟩
theorem t3_chunks (o : Nat → R) : (t3 (R := R)).ChunkInvariant o := chunkInvariant_of t3Phases_ordered o
/-- t3 in any arithmetic: the stream writes bit for bit what the batch call writes. -/
theorem t3_stream_eq_batch (o : Nat → R) (h0 : ¬ o 0 < c! 1) (h1 : ¬ o 1 < c! 0) : (t3 (R := R)).StreamEqBatch o 0 :=
  streamEqBatch_of (t3_run o h0 h1) (t3_stream_run o h0 h1)

theorem dwma_refuses (o : Nat → R) (p : Int) (hc : toInt (o 0) = .ok p) (hp : p < 1) : Refuses dwmaBatch o :=
  fun xs => by simp [dwmaBatch, hc, hp]
theorem dwma_stream_refuses (o : Nat → R) (hp : o 0 < c! 1) : (dwma (R := R)).NewRefuses o := by
  simp [Indicator.NewRefuses, dwma, dwmaNew, hp]
theorem pwma_refuses (o : Nat → R) (p : Int) (hc : toInt (o 0) = .ok p) (hp : p < 1) :
    Refuses pwmaBatch o ∧ (pwma (R := R)).NewRefuses o :=
  ⟨fun xs => by simp [pwmaBatch, hc, hp], by simp [Indicator.NewRefuses, pwma, pwmaNew, hc, hp]⟩
theorem pwma_chunks (o : Nat → R) : (pwma (R := R)).ChunkInvariant o := chunkInvariant_of pwmaPhases_ordered o
theorem copp_refuses (o : Nat → R) (h : o 0 < c! 1 ∨ o 1 < c! 1 ∨ o 2 < c! 1 ∨ o 1 < o 0) : Refuses coppBatch o := by
  intro xs
  by_cases hb : coppBad o
  · simp [coppBatch, hb]
  · have : o 1 < o 0 := by
      unfold coppBad at hb; tauto
    simp [coppBatch, hb, this]
theorem copp_stream_refuses (o : Nat → R) (s l w : Int) (h0 : toInt (o 0) = .ok s) (h1 : toInt (o 1) = .ok l)
    (h2 : toInt (o 2) = .ok w) (h : o 0 < c! 1 ∨ o 1 < c! 1 ∨ o 2 < c! 1 ∨ l < s) : (copp (R := R)).NewRefuses o := by
  by_cases hb : coppBad o
  · simp [Indicator.NewRefuses, copp, coppNew, h0, h1, h2, hb]
  · have : l < s := by
      unfold coppBad at hb; tauto
    simp [Indicator.NewRefuses, copp, coppNew, h0, h1, h2, hb, this]
theorem copp_chunks (o : Nat → R) : (copp (R := R)).ChunkInvariant o := chunkInvariant_of coppPhases_ordered o

section Exact
variable [IntExact R]

theorem dwmaStart_ok (o : Nat → R) (p : Nat) (ho : o 0 = ((p : Int) : R)) (hp : 1 ≤ p) (hb : p ≤ 1073741824) :
    dwmaStart o = .ok ((2 * (p - 1) : Nat) : Int) := by
  unfold dwmaStart
  rw [ho, IntExact.sub _ _ (by unfold Small; omega) (by unfold Small; omega) (by unfold Small; omega),
    IntExact.mul _ _ (by unfold Small; omega) (by unfold Small; omega) (by unfold Small; omega) (Or.inl (by omega)),
    toInt_cast _ (by omega)]
  congr 1; omega

/-- Partial: whole-number periods only; a fractional one makes the batch call write past its output (`dwma_violates`). -/
theorem dwma_contract_partial (o : Nat → R) (p : Nat) (ho : o 0 = ((p : Int) : R)) (hp : 1 ≤ p) (hb : p ≤ 1073741824) :
    Contract dwmaStart dwmaBatch o (2 * (p - 1)) :=
  (dwma_run o p (by rw [ho]; exact toInt_cast _ (by omega)) hp hb (dwmaStart_ok o p ho hp hb)).contract
    (dwmaStart_ok o p ho hp hb)
/-- dwma in any arithmetic with exact integers: the stream writes what the batch call writes. Partial as above. -/
theorem dwma_stream_eq_batch_partial (o : Nat → R) (p : Nat) (ho : o 0 = ((p : Int) : R)) (hp : 1 ≤ p)
    (hb : p ≤ 1073741824) : (dwma (R := R)).StreamEqBatch o (2 * (p - 1)) := by
  have hc : toInt (o 0) = .ok (p : Int) := by rw [ho]; exact toInt_cast _ (by omega)
  have h := dwma_stream_run o p hc hp (not_lt_one hc hp) (dwmaStart_ok o p ho hp hb)
  rw [ho] at h
  exact streamEqBatch_of (dwma_run o p hc hp hb (dwmaStart_ok o p ho hp hb)) h

theorem pwma_contract (o : Nat → R) (p : Nat) (hc : toInt (o 0) = .ok (p : Int)) (hp : 1 ≤ p) :
    Contract pwmaStart pwmaBatch o (p - 1) :=
  (pwma_run o p hc hp (toInt_sub_one hc hp)).contract (toInt_sub_one hc hp)

/-- Partial: whole-number options only. -/
theorem copp_contract_partial (o : Nat → R) (s l w : Nat) (h0 : o 0 = ((s : Int) : R)) (h1 : o 1 = ((l : Int) : R))
    (h2 : o 2 = ((w : Int) : R)) (hs : 1 ≤ s) (hl : s ≤ l) (hw : 1 ≤ w) (hb : l + w ≤ 2147483646) :
    Contract coppStart coppBatch o (l + (w - 1)) :=
  (copp_run o s l w h0 h1 h2 hs hl hw hb).contract (coppStart_ok o l w h1 h2 hw (by omega))
/-- The stream computes the weight total in `int`: it overflows where the batch call does not. -/
theorem copp_stream_overflow (o : Nat → R) (s l w : Nat) (h0 : o 0 = ((s : Int) : R)) (h1 : o 1 = ((l : Int) : R))
    (h2 : o 2 = ((w : Int) : R)) (hs : 1 ≤ s) (hl : s ≤ l) (hw : 1 ≤ w) (hb : l + w ≤ 2147483646)
    (hb2 : 2147483647 < w * (w + 1)) : (copp (R := R)).new o = .error .intRange := by
  have hb2' : (2147483647 : Int) < (w : Int) * (w + 1) := by exact_mod_cast hb2
  have hbad : ¬ coppBad o := by
    unfold coppBad
    rw [h0, h1, h2, IntExact.lt _ _ (by omega) (by unfold Small; omega),
      IntExact.lt _ _ (by omega) (by unfold Small; omega),
      IntExact.lt _ _ (by omega) (by unfold Small; omega)]
    omega
  simp only [copp, coppNew, toInt_cast' h0 (by omega), toInt_cast' h1 (by omega), toInt_cast' h2 (by omega), bind_ok,
    pure_eq, coppStart_ok o l w h1 h2 hw (by omega)]
  rw [if_neg hbad, if_neg (by omega), i32_ok _ (by omega) (by omega), bind_ok]
  refine bind_err ?_
  unfold i32
  rw [if_neg (by omega)]

end Exact
end Any

section Field
variable {R : Type} [Field R] [LinearOrder R] [IsStrictOrderedRing R] [CMath R]

/-! ### Values -/

/-- er: net move over the period as a fraction of the path length, 0 without net move. -/
theorem er_value [LawfulAbs R] (o : Nat → R) (p : Nat) (hc : toInt (o 0) = .ok (p : Int)) (hp : 1 ≤ p) :
    Computes erBatch o p (efficiency p) := (er_run o p hc hp).congr fun x j => erVal_eq p hp x j
theorem er_stream_value_partial [LawfulAbs R] (o : Nat → R) (p : Nat) (hc : toInt (o 0) = .ok (p : Int)) (hp : 1 ≤ p)
    (hb : p < 2147483647) : (er (R := R)).StreamComputes o p (efficiency p) :=
  StreamComputes.congr (er_stream_run o p hc hp hb) fun x j => erVal_eq p hp x j
/-- er lies in [0, 1]. -/
theorem er_range [LawfulAbs R] (o : Nat → R) (p : Nat) (hc : toInt (o 0) = .ok (p : Int)) (hp : 1 ≤ p) (x : Nat → R)
    (N : Nat) : ∃ y, erBatch o (pre x N) = .ok (.okay, pre y (N - p)) ∧ ∀ j, 0 ≤ y j ∧ y j ≤ 1 :=
  ⟨_, er_value o p hc hp x N, fun j => efficiency_range p x j⟩
/-- The reference implementation of er agrees with the batch call. -/
theorem er_ref_eq_batch_partial [LawfulAbs R] (o : Nat → R) (p : Nat) (hc : toInt (o 0) = .ok (p : Int)) (hp : 1 ≤ p)
    (hb : p < 2147483647) (xs : List R) : erRef o xs = erBatch o xs := by
  obtain ⟨x, hx⟩ := exists_pre xs
  rw [hx, er_value o p hc hp x, ((erRef_run o p hc hp hb).congr fun x j => erRefVal_eq p x j) x]

/-- dwma: the weighted moving average of the weighted moving average. -/
theorem dwma_value_partial [LawfulTrunc R] [LawfulRound R] (o : Nat → R) (p : Nat) (ho : o 0 = ((p : Int) : R))
    (hp : 1 ≤ p) (hb : p ≤ 1073741824) : Computes dwmaBatch o (2 * (p - 1)) (fun x => wma p (wma p x)) :=
  (dwma_run o p (by rw [ho]; exact toInt_cast _ (by omega)) hp hb (dwmaStart_ok o p ho hp hb)).congr fun x j => by
    have hd : (c! 1 + ((p : Int) : R)) * ((p : Int) : R) / c! 2 = ∑ k ∈ range p, ((k + 1 : Nat) : R) := by
      rw [← gauss]; push_cast; rfl
    show dwF p _ (dwF p _ x) j = _
    rw [dwF_eq p hp _ hd, show dwF p _ x = wma p x from funext fun k => dwF_eq p hp _ hd x k]
/-- dwma stays between bounds of the values it averages. -/
theorem wma_between (p : Nat) (hp : 1 ≤ p) (x : Nat → R) (lo hi : R) (j : Nat)
    (h : ∀ k, k < p → lo ≤ x (j + k) ∧ x (j + k) ≤ hi) : lo ≤ wma p x j ∧ wma p x j ≤ hi := by
  unfold wma
  refine wmean_bounds (fun k => ((k + 1 : Nat) : R)) (fun k => x (j + k)) lo hi (fun k _ => Nat.cast_nonneg _) ?_ h
  refine sum_pos (fun k _ => ?_) ⟨0, mem_range.2 (by omega)⟩
  exact_mod_cast Nat.succ_pos k
theorem dwma_bounds_partial [LawfulTrunc R] [LawfulRound R] (o : Nat → R) (p : Nat) (ho : o 0 = ((p : Int) : R))
    (hp : 1 ≤ p) (hb : p ≤ 1073741824) (x : Nat → R) (N : Nat) : ∃ y,
    dwmaBatch o (pre x N) = .ok (.okay, pre y (N - 2 * (p - 1))) ∧ ∀ lo hi j,
      (∀ k, j ≤ k → k ≤ j + 2 * (p - 1) → lo ≤ x k ∧ x k ≤ hi) → lo ≤ y j ∧ y j ≤ hi :=
  ⟨_, dwma_value_partial o p ho hp hb x N, fun lo hi j h => wma_between p hp _ lo hi j fun k hk =>
    wma_between p hp x lo hi (j + k) fun m hm => h _ (by omega) (by omega)⟩

/-- pwma: the mean weighted with powers of 1, …, period. -/
theorem pwma_value [LawfulTrunc R] [LawfulRound R] (o : Nat → R) (p : Nat) (hc : toInt (o 0) = .ok (p : Int))
    (hp : 1 ≤ p) : Computes pwmaBatch o (p - 1) (powerMean p (o 1)) :=
  (pwma_run o p hc hp (toInt_sub_one hc hp)).congr fun x j => pw_eq p (o 1) x j
theorem pwma_stream_value_partial [LawfulTrunc R] [LawfulRound R] (o : Nat → R) (p : Nat)
    (hc : toInt (o 0) = .ok (p : Int)) (hp : 1 ≤ p) (hb : p < 2147483647) :
    (pwma (R := R)).StreamComputes o (p - 1) (powerMean p (o 1)) :=
  StreamComputes.congr (pwma_stream_run o p hc hp hb (toInt_sub_one hc hp)) fun x j => by
    rw [← pw_eq]; push_cast; rw [mul_one_div]
/-- pwma: stream and batch agree (the stream multiplies by the reciprocal of the weight total). Partial: `period + 1`
overflows for the largest period. -/
theorem pwma_stream_eq_batch_partial [LawfulTrunc R] [LawfulRound R] (o : Nat → R) (p : Nat)
    (hc : toInt (o 0) = .ok (p : Int)) (hp : 1 ≤ p) (hb : p < 2147483647) :
    (pwma (R := R)).StreamEqBatch o (p - 1) :=
  streamEqBatch_of (pwma_value o p hc hp) (pwma_stream_value_partial o p hc hp hb)
/-- pwma stays between bounds of the window, if the powers are positive. -/
theorem pwma_bounds [LawfulTrunc R] [LawfulRound R] (o : Nat → R) (p : Nat) (hc : toInt (o 0) = .ok (p : Int))
    (hp : 1 ≤ p) (hpow : ∀ k : Nat, 0 < CMath.pow ((k + 1 : Nat) : R) (o 1)) (x : Nat → R) (N : Nat) : ∃ y,
    pwmaBatch o (pre x N) = .ok (.okay, pre y (N - (p - 1))) ∧ ∀ lo hi j,
      (∀ k, k < p → lo ≤ x (j + k) ∧ x (j + k) ≤ hi) → lo ≤ y j ∧ y j ≤ hi :=
  ⟨_, pwma_value o p hc hp x N, fun lo hi j h => wmean_bounds (fun k => CMath.pow ((k + 1 : Nat) : R) (o 1))
    (fun k => x (j + k)) lo hi (fun k _ => (hpow k).le) (sum_pos (fun k _ => hpow k) ⟨0, mem_range.2 (by omega)⟩) h⟩

/-- swma: the mean with weights `sin ((k mod 12 + 1) π / 6)`, `k` counted from the newest value, `π = acos (-1)`. -/
theorem swma_value (o : Nat → R) (p : Nat) (hc : toInt (o 0) = .ok (p : Int)) (hp : 1 ≤ p) (hb : p < 2147483647)
    (h1 : p % 6 ≠ 0) (h2 : p % 6 ≠ 5) : Computes swmaBatch o (p - 1)
      (backMean (fun k => CMath.sin (((k % 12 + 1 : Nat) : R) * CMath.acos (-1) / 6)) p) :=
  (swma_run o p hc hp hb h1 h2).congr fun x j => by
    rw [swVal_eq]
    congr 1
    funext k
    unfold swTab
    rw [show (((k % 12 : Nat) : Int) + 1) = ((k % 12 + 1 : Nat) : Int) by push_cast; rfl, Int.cast_natCast,
      Int.cast_one, show (((6 : Int)) : R) = 6 from Int.cast_ofNat 6]

/-- t3: three generalised double exponential averages with coefficient 2/(period+1) and volume factor v. The period may be
fractional. -/
theorem t3_value (o : Nat → R) (h0 : 1 ≤ o 0) (h1 : 0 ≤ o 1) :
    Computes t3Batch o 0 (Spec.t3 (2 / (o 0 + 1)) (o 1)) :=
  (t3_run o (by push_cast; exact not_lt.2 h0) (by push_cast; exact not_lt.2 h1)).congr fun x j => by
    rw [t3Traj_eq (o 0) (o 1) _ rfl]
theorem t3_stream_value (o : Nat → R) (h0 : 1 ≤ o 0) (h1 : 0 ≤ o 1) :
    (t3 (R := R)).StreamComputes o 0 (Spec.t3 (2 / (o 0 + 1)) (o 1)) :=
  StreamComputes.congr (t3_stream_run o (by push_cast; exact not_lt.2 h0) (by push_cast; exact not_lt.2 h1))
    fun x j => by rw [t3Traj_eq (o 0) (o 1) _ rfl]

/-- copp: the weighted average of the mean of two rates of change. -/
theorem copp_value_partial [LawfulTrunc R] [LawfulRound R] (o : Nat → R) (s l w : Nat) (h0 : o 0 = ((s : Int) : R))
    (h1 : o 1 = ((l : Int) : R)) (h2 : o 2 = ((w : Int) : R)) (hs : 1 ≤ s) (hl : s ≤ l) (hw : 1 ≤ w)
    (hb : l + w ≤ 2147483646) :
    Computes coppBatch o (l + (w - 1)) (fun x => wma w (fun m => meanChange s l x (m + l))) :=
  (copp_run o s l w h0 h1 h2 hs hl hw hb).congr fun x j => coppVal_eq s l w hw _ (by
    rw [← gauss]; push_cast; rw [mul_comm, add_comm]) x j
theorem copp_stream_value_partial [LawfulTrunc R] [LawfulRound R] (o : Nat → R) (s l w : Nat) (h0 : o 0 = ((s : Int) : R))
    (h1 : o 1 = ((l : Int) : R)) (h2 : o 2 = ((w : Int) : R)) (hs : 1 ≤ s) (hl : s ≤ l) (hw : 1 ≤ w)
    (hb : l + w ≤ 2147483646) (hb2 : w * (w + 1) ≤ 2147483647) :
    (copp (R := R)).StreamComputes o (l + (w - 1)) (fun x => wma w (fun m => meanChange s l x (m + l))) :=
  StreamComputes.congr (copp_stream_run o s l w h0 h1 h2 hs hl hw hb hb2) fun x j => coppVal_eq s l w hw _ (by
    rw [weights_eq]; push_cast; rfl) x j
/-- copp: stream and batch agree. Partial: whole-number options; for `wma_period * (wma_period + 1)` beyond `int` only the
batch call works (`copp_stream_overflow`). -/
theorem copp_stream_eq_batch_partial [LawfulTrunc R] [LawfulRound R] (o : Nat → R) (s l w : Nat)
    (h0 : o 0 = ((s : Int) : R)) (h1 : o 1 = ((l : Int) : R)) (h2 : o 2 = ((w : Int) : R)) (hs : 1 ≤ s) (hl : s ≤ l)
    (hw : 1 ≤ w) (hb : l + w ≤ 2147483646) (hb2 : w * (w + 1) ≤ 2147483647) :
    (copp (R := R)).StreamEqBatch o (l + (w - 1)) :=
  streamEqBatch_of (copp_value_partial o s l w h0 h1 h2 hs hl hw hb)
    (copp_stream_value_partial o s l w h0 h1 h2 hs hl hw hb hb2)

/-! ### Reference implementation of t3 -/

theorem t3RefGD_run (o : Nat → R) (p : Nat) (hc : toInt (o 0) = .ok (p : Int)) (hp : 1 ≤ p) (x : Nat → R) (N : Nat) :
    t3RefGD o (pre x N) = .ok (pre (gdema (emaCoef p) (o 1) x) N) := by
  unfold t3RefGD
  have he : ∀ y, emaBatch o (pre y N) = .ok (.okay, pre (ema (emaCoef p) y) N) := fun y => by
    rw [((ema_run o p hc hp).congr fun x j => by rw [emaRec_eq, emaPer_eq]) y N]; rfl
  rw [he, bind_ok]
  simp only []
  rw [he, bind_ok, length_pre]
  refine forUp_nat (a := 0) (b := N) (fun i => pre (gdema (emaCoef p) (o 1) x) i) (by omega) ?_
  intro i _ hi
  rw [rd_at i rfl hi, bind_ok, rd_at i rfl hi, bind_ok, wr_pre _ _ _ _ (by omega) ?_]
  unfold gdema; push_cast; ring

/-- t3: the reference implementation agrees with the batch call for whole-number periods (`ti_ema` truncates the period, the
batch call does not: `t3_ref_ne_batch`). -/
theorem t3_ref_eq_batch_partial [LawfulTrunc R] (o : Nat → R) (p : Nat) (ho : o 0 = ((p : Int) : R)) (hp : 1 ≤ p)
    (hb : p ≤ 2147483647) (h1 : 0 ≤ o 1) (xs : List R) : t3Ref o xs = t3Batch o xs := by
  obtain ⟨x, hx⟩ := exists_pre xs
  have hc : toInt (o 0) = .ok (p : Int) := by
    rw [ho]; unfold toInt; rw [LawfulTrunc.trunc_intCast, i32_ok _ (by omega) (by omega)]
  have h0 : 1 ≤ o 0 := by rw [ho]; exact_mod_cast hp
  rw [hx, t3_value o h0 h1 x]
  unfold t3Ref
  rw [if_neg (by push_cast; exact not_lt.2 h0), if_neg (by push_cast; exact not_lt.2 h1), t3RefGD_run o p hc hp, bind_ok,
    t3RefGD_run o p hc hp, bind_ok, t3RefGD_run o p hc hp, bind_ok]
  have e : (emaCoef p : R) = 2 / (o 0 + 1) := by rw [ho]; unfold emaCoef; push_cast; rfl
  rw [e]; rfl

end Field

/-- With period 5/2 the batch call writes one value more than `size - ti_dwma_start(options)`. -/
theorem dwma_violates : dwmaBatch (opts [5/2]) [1, 2, 3] = .error .oobWrite := by decide +kernel
/-- For a fractional period t3 and its reference differ. -/
theorem t3_ref_ne_batch : t3Ref (opts [5/2, 1]) [1, 2] ≠ t3Batch (opts [5/2, 1]) [1, 2] := by decide +kernel

/-! ### swma over the real numbers -/

theorem real_sw (k : Nat) : Real.sin (((k % 12 + 1 : Nat) : ℝ) * Real.pi / 6) = Real.sin (((k + 1 : Nat) : ℝ) * Real.pi / 6) := by
  have h : ((k + 1 : Nat) : ℝ) * Real.pi / 6 = ((k % 12 + 1 : Nat) : ℝ) * Real.pi / 6 + ((k / 12 : Nat) : ℝ) * (2 * Real.pi) := by
    have : (k + 1 : ℕ) = k % 12 + 1 + 12 * (k / 12) := by omega
    rw [this]; push_cast; ring
  rw [h, Real.sin_add_nat_mul_two_pi]

/-- Over the reals the reference implementation of swma (sines computed directly) agrees with the tabulated batch call. -/
theorem swma_ref_eq_batch_partial (o : Nat → ℝ) (p : Nat) (hc : toInt (o 0) = .ok (p : Int)) (hp : 1 ≤ p)
    (hb : p < 2147483647) (h1 : p % 6 ≠ 0) (h2 : p % 6 ≠ 5) (xs : List ℝ) : swmaRef o xs = swmaBatch o xs := by
  obtain ⟨x, hx⟩ := exists_pre xs
  rw [hx, swma_run o p hc hp hb h1 h2 x, swmaRef_run o p hc hp hb h1 h2 x]
  have : (swDirect : Nat → ℝ) = swTab := by
    funext k
    have := real_sw k
    unfold swDirect swTab
    simp only [CMath.sin, CMath.acos]
    push_cast at this ⊢
    rw [Real.arccos_neg_one]
    exact this.symm
  rw [this]

/-- The weights of a full turn cancel. -/
theorem real_sw_sum (p : Nat) : ∑ k ∈ range (p + 12), Real.sin (((k + 1 : Nat) : ℝ) * Real.pi / 6) =
    ∑ k ∈ range p, Real.sin (((k + 1 : Nat) : ℝ) * Real.pi / 6) := by
  have hk : ∀ k : ℕ, Real.sin (((k + 6 + 1 : Nat) : ℝ) * Real.pi / 6) = -Real.sin (((k + 1 : Nat) : ℝ) * Real.pi / 6) := by
    intro k
    rw [← Real.sin_add_pi]; congr 1; push_cast; ring
  rw [show p + 12 = p + 6 + 6 from rfl, sum_range_add, sum_range_add (n := p)]
  have : ∑ k ∈ range 6, Real.sin (((p + 6 + k + 1 : Nat) : ℝ) * Real.pi / 6) =
      -∑ k ∈ range 6, Real.sin (((p + k + 1 : Nat) : ℝ) * Real.pi / 6) := by
    rw [← sum_neg_distrib]
    refine sum_congr rfl fun k _ => ?_
    rw [← hk, show p + 6 + k + 1 = p + k + 6 + 1 by omega]
  rw [this]; ring

/-- The weights of every accepted period have a positive sum: swma never divides by zero (over the reals). -/
theorem swma_denominator_pos (p : Nat) (hp : 1 ≤ p) (h1 : p % 6 ≠ 0) (h2 : p % 6 ≠ 5) :
    0 < ∑ k ∈ range p, Real.sin (((k + 1 : Nat) : ℝ) * Real.pi / 6) := by
  set f : ℕ → ℝ := fun k => Real.sin (((k + 1 : Nat) : ℝ) * Real.pi / 6) with hf
  have hpos : ∀ k, k < 5 → 0 < f k := fun k hk => by
    have hk' : ((k : ℝ) + 1) ≤ 5 := by have : k + 1 ≤ 5 := by omega
                                       exact_mod_cast this
    apply Real.sin_pos_of_pos_of_lt_pi
    · have := Real.pi_pos; positivity
    · push_cast; nlinarith [Real.pi_pos]
  have h5 : f 5 = 0 := by
    rw [hf]; simp only []; rw [show ((5 + 1 : Nat) : ℝ) * Real.pi / 6 = Real.pi by push_cast; ring, Real.sin_pi]
  have hk : ∀ k, f (k + 6) = -f k := by
    intro k
    rw [hf]; simp only []
    rw [← Real.sin_add_pi]; congr 1; push_cast; ring
  have hred : ∀ q r, ∑ k ∈ range (r + 12 * q), f k = ∑ k ∈ range r, f k := by
    intro q r
    induction q with
    | zero => rfl
    | succ q ih => rw [← ih, show r + 12 * (q + 1) = r + 12 * q + 12 by ring]; exact real_sw_sum _
  have e : p = p % 12 + 12 * (p / 12) := by omega
  rw [e, hred]
  have hr : p % 12 = 1 ∨ p % 12 = 2 ∨ p % 12 = 3 ∨ p % 12 = 4 ∨ p % 12 = 7 ∨ p % 12 = 8 ∨ p % 12 = 9 ∨ p % 12 = 10 := by
    omega
  have p0 := hpos 0 (by omega); have p1 := hpos 1 (by omega); have p2 := hpos 2 (by omega)
  have p3 := hpos 3 (by omega); have p4 := hpos 4 (by omega)
  have k0 := hk 0; have k1 := hk 1; have k2 := hk 2; have k3 := hk 3
  simp only [Nat.reduceAdd] at k0 k1 k2 k3
  rcases hr with h | h | h | h | h | h | h | h <;> rw [h] <;> simp only [sum_range_succ, range_zero, sum_empty] <;> linarith

/-- Over the reals swma reproduces a constant input. -/
theorem swma_constant_partial (o : Nat → ℝ) (p : Nat) (hc : toInt (o 0) = .ok (p : Int)) (hp : 1 ≤ p) (hb : p < 2147483647)
    (h1 : p % 6 ≠ 0) (h2 : p % 6 ≠ 5) (c : ℝ) (N : Nat) :
    swmaBatch o (pre (fun _ => c) N) = .ok (.okay, pre (fun _ => c) (N - (p - 1))) := by
  rw [swma_value o p hc hp hb h1 h2]
  congr 3
  funext j
  unfold backMean
  rw [← sum_mul, mul_comm, mul_div_assoc, div_self, mul_one]
  have := (swma_denominator_pos p hp h1 h2).ne'
  simp only [CMath.sin, CMath.acos, Real.arccos_neg_one, real_sw]
  exact this

/- Concrete runs and instances of the hypotheses. -/
example : toInt (opts [3] 0) = .ok ((3 : Nat) : Int) ∧ 3 % 6 ≠ 0 ∧ 3 % 6 ≠ 5 ∧ 3 < 2147483647 := by decide +kernel
example : toInt (opts [2147483647] 0) = .ok 2147483647 := by decide +kernel
example : toInt (opts [11] 0) = .ok ((11 : Nat) : Int) ∧ 11 % 6 = 5 := by decide +kernel
example : opts [2] 0 = (((2 : Nat) : Int) : Rat) := by decide +kernel
example : erBatch (opts [2]) [1, 2, 4, 3, 3] = .ok (.okay, [1, 1/3, 1]) := by decide +kernel
example : erRef (opts [2]) [1, 2, 4, 3, 3] = .ok (.okay, [1, 1/3, 1]) := by decide +kernel
example : (er (R := Rat)).session (opts [2]) [[1], [2, 4], [], [3, 3]] = .ok (.okay, 3, [1, 1/3, 1]) := by decide +kernel
example : dwmaBatch (opts [2]) [1, 2, 4, 3] = .ok (.okay, [25/9, 10/3]) := by decide +kernel
example : (dwma (R := Rat)).session (opts [2]) [[1], [2, 4], [], [3]] = .ok (.okay, 2, [25/9, 10/3]) := by decide +kernel
example : t3Batch (opts [1, 1]) [1, 2, 4, 3] = .ok (.okay, [1, 2, 4, 3]) := by decide +kernel


example : (1 : Rat) ≤ opts [3/2, 1/2] 0 ∧ (0 : Rat) ≤ opts [3/2, 1/2] 1 := by decide +kernel
example : coppBatch (opts [1, 2, 2]) [1, 2, 4, 5, 0, 1] = .ok (.okay, [125, -75/2, -100/3]) := by decide +kernel
example : (copp (R := Rat)).session (opts [1, 2, 2]) [[1, 2], [], [4, 5, 0, 1]] = .ok (.okay, 3, [125, -75/2, -100/3]) := by decide +kernel
example : t3Batch (opts [3/2, 1/2]) [1, 2] = .ok (.okay, [1, 26273/15625]) := by decide +kernel
example : (t3 (R := Rat)).session (opts [3/2, 1/2]) [[1], [], [2]] = .ok (.okay, 2, [1, 26273/15625]) := by decide +kernel
example : opts [1, 2, 2] 0 = (((1 : Nat) : Int) : Rat) ∧ opts [1, 2, 2] 1 = (((2 : Nat) : Int) : Rat) := by decide +kernel
example (k : Nat) : 0 < (CMath.pow (((k + 1 : Nat) : ℝ)) 2 : ℝ) := Real.rpow_pos_of_pos (by positivity) _

end Verif
