/-
C14 (wma, vwma), C17 (rsi, cmo), C10/C18 (tr, atr, natr).
-/
import Verif.Proof.WindowField
import Verif.Core.RatInst

namespace Verif
open Spec Finset

section Any
variable {R : Type} [Num R]

/-! ### Any arithmetic: contract, refusal, overflow, ref, chunking -/

/-- wma, all periods with period·(period+1) in the range of `int`. -/
theorem wma_contract_partial (o : Nat → R) (p : Nat) (hc : toInt (o 0) = .ok (p : Int)) (hp : 1 ≤ p)
    (hb : p * (p + 1) ≤ 2147483647) : Contract wmaStart wmaBatch o (p - 1) :=
  (wma_run o p hc hp hb).contract (by simp [wmaStart, hc, startM1_ok hc hp])
theorem wma_refuses (o : Nat → R) (p : Int) (hc : toInt (o 0) = .ok p) (hp : p < 1) :
    Refuses wmaBatch o := by intro xs; simp [wmaBatch, hc, hp]
/-- For longer periods the weight total overflows as soon as there is enough input. -/
theorem wma_overflow (o : Nat → R) (p : Nat) (hc : toInt (o 0) = .ok (p : Int)) (hp : 1 ≤ p)
    (hb : 2147483647 < p * (p + 1)) (xs : List R) (hN : p ≤ xs.length) :
    wmaBatch o xs = .error .intRange := by
  have hb' : (2147483647 : Int) < (p : Int) * (p + 1) := by exact_mod_cast hb
  unfold wmaBatch
  simp only [hc, bind_ok, wmaStart, startM1_ok hc hp, pure_eq]
  rw [if_neg (by omega), if_neg (by omega)]
  by_cases h : (p : Int) + 1 ≤ 2147483647
  · rw [i32_ok _ (by omega) h]
    simp [i32, show ¬ (p : Int) * (p + 1) ≤ 2147483647 by omega]
  · simp [i32, h]

theorem vwma_contract (o : Nat → R) (p : Nat) (hc : toInt (o 0) = .ok (p : Int)) (hp : 1 ≤ p) :
    Contract vwmaStart vwmaBatch o (p - 1) :=
  (vwma_run o p hc hp).contract (by simp [vwmaStart, hc, startM1_ok hc hp])
theorem vwma_refuses (o : Nat → R) (p : Int) (hc : toInt (o 0) = .ok p) (hp : p < 1) :
    Refuses vwmaBatch o := by intro xs; simp [vwmaBatch, hc, hp]

theorem rsi_contract (o : Nat → R) (p : Nat) (hc : toInt (o 0) = .ok (p : Int)) (hp : 1 ≤ p) :
    Contract rsiStart rsiBatch o p := (rsi_run o p hc hp).contract hc
theorem rsi_refuses (o : Nat → R) (p : Int) (hc : toInt (o 0) = .ok p) (hp : p < 1) :
    Refuses rsiBatch o := by intro xs; simp [rsiBatch, hc, hp]

theorem cmo_contract (o : Nat → R) (p : Nat) (hc : toInt (o 0) = .ok (p : Int)) (hp : 1 ≤ p) :
    Contract cmoStart cmoBatch o p := (cmo_run o p hc hp).contract hc
theorem cmo_refuses (o : Nat → R) (p : Int) (hc : toInt (o 0) = .ok p) (hp : p < 1) :
    Refuses cmoBatch o := by intro xs; simp [cmoBatch, hc, hp]

theorem tr_contract (o : Nat → R) : Contract trStart trBatch o 0 := (tr_run o).contract rfl

theorem atr_contract (o : Nat → R) (p : Nat) (hc : toInt (o 0) = .ok (p : Int)) (hp : 1 ≤ p) :
    Contract atrStart atrBatch o (p - 1) :=
  (atr_run o p hc hp).contract (by simp [atrStart, hc, startM1_ok hc hp])
theorem atr_refuses (o : Nat → R) (p : Int) (hc : toInt (o 0) = .ok p) (hp : p < 1) :
    Refuses atrBatch o ∧ (atr (R := R)).NewRefuses o := by
  constructor
  · intro xs; simp [atrBatch, hc, hp]
  · simp [Indicator.NewRefuses, atr, atrNew, hc, hp]
theorem atr_chunks (o : Nat → R) : (atr (R := R)).ChunkInvariant o := by
  refine chunkInvariant_of' fun k p s h => ?_
  simp only [atr, atrNew, atrStart] at h
  cases hc : toInt (o 0) with
  | error e => rw [hc] at h; cases h
  | ok q =>
    rw [hc] at h
    simp only [bind_ok] at h
    split at h
    · cases h
    · have hr := toInt_range hc
      rw [i32_ok _ (by omega) (by omega)] at h
      cases h
      exact atrPhases_ordered _

/-- The reference implementation performs the same operations: equal in any arithmetic. -/
theorem atr_ref_eq_batch (o : Nat → R) (p : Nat) (hc : toInt (o 0) = .ok (p : Int)) (hp : 1 ≤ p)
    (xs : List (HLC R)) : atrRef o xs = atrBatch o xs := by
  obtain ⟨x, hx⟩ := exists_pre xs
  rw [hx, atrRef_run o p hc hp, atr_run o p hc hp]

theorem natr_contract (o : Nat → R) (p : Nat) (hc : toInt (o 0) = .ok (p : Int)) (hp : 1 ≤ p) :
    Contract natrStart natrBatch o (p - 1) :=
  (natr_run o p hc hp).contract (by simp [natrStart, hc, startM1_ok hc hp])
theorem natr_refuses (o : Nat → R) (p : Int) (hc : toInt (o 0) = .ok p) (hp : p < 1) :
    Refuses natrBatch o := by intro xs; simp [natrBatch, hc, hp]

end Any

section Field
variable {R : Type} [Field R] [LinearOrder R] [IsStrictOrderedRing R] [CMath R]

/-! ### Values -/

/-- wma: mean of the window with weights 1 (oldest) … period (newest). -/
theorem wma_value_partial (o : Nat → R) (p : Nat) (hc : toInt (o 0) = .ok (p : Int)) (hp : 1 ≤ p)
    (hb : p * (p + 1) ≤ 2147483647) : Computes wmaBatch o (p - 1) (fun x j =>
      (∑ k ∈ range p, ((k + 1 : Nat) : R) * x (j + k)) / ∑ k ∈ range p, ((k + 1 : Nat) : R)) :=
  (wma_run o p hc hp hb).congr fun x j => wmaVal_eq p hp x j

/-- Every value of wma lies between any bounds of its window. -/
theorem wma_bounds (o : Nat → R) (p : Nat) (hc : toInt (o 0) = .ok (p : Int)) (hp : 1 ≤ p)
    (hb : p * (p + 1) ≤ 2147483647) (x : Nat → R) (N : Nat) :
    ∃ y, wmaBatch o (pre x N) = .ok (.okay, pre y (N - (p - 1))) ∧
      ∀ j lo hi, (∀ k, j ≤ k → k < j + p → lo ≤ x k ∧ x k ≤ hi) → lo ≤ y j ∧ y j ≤ hi := by
  refine ⟨_, wma_value_partial o p hc hp hb x N, fun j lo hi h => ?_⟩
  refine wmean_bounds (fun k => ((k + 1 : Nat) : R)) (fun k => x (j + k)) lo hi (fun k _ => by positivity) ?_
    (fun k hk => h _ (by omega) (by omega))
  exact sum_pos (fun k _ => by positivity) ⟨0, mem_range.2 (by omega)⟩

/-- vwma: mean of the window weighted by volume (0 where the weighted sum is 0). -/
theorem vwma_value (o : Nat → R) (p : Nat) (hc : toInt (o 0) = .ok (p : Int)) (hp : 1 ≤ p) :
    Computes vwmaBatch o (p - 1) (fun x j =>
      let s := winSum p (fun i => (x i).close * (x i).volume) j
      if s = 0 then 0 else s / winSum p (fun i => (x i).volume) j) :=
  (vwma_run o p hc hp).congr fun x j => by simp [slide_eq]

/-- With positive volumes every value of vwma lies between any bounds of the prices in its window. -/
theorem vwma_bounds (o : Nat → R) (p : Nat) (hc : toInt (o 0) = .ok (p : Int)) (hp : 1 ≤ p)
    (x : Nat → CV R) (hv : ∀ k, 0 < (x k).volume) (N : Nat) :
    ∃ y, vwmaBatch o (pre x N) = .ok (.okay, pre y (N - (p - 1))) ∧
      ∀ j lo hi, (∀ k, j ≤ k → k < j + p → lo ≤ (x k).close ∧ (x k).close ≤ hi) → lo ≤ y j ∧ y j ≤ hi := by
  refine ⟨_, vwma_value o p hc hp x N, fun j lo hi h => ?_⟩
  have hs : 0 < ∑ k ∈ range p, (x (j + k)).volume := sum_pos (fun k _ => hv _) ⟨0, mem_range.2 (by omega)⟩
  have hb := wmean_bounds (fun k => (x (j + k)).volume) (fun k => (x (j + k)).close) lo hi
    (fun k _ => (hv _).le) hs (fun k hk => h _ (by omega) (by omega))
  have e : winSum p (fun i => (x i).close * (x i).volume) j = ∑ k ∈ range p, (x (j + k)).volume * (x (j + k)).close :=
    sum_congr rfl fun k _ => mul_comm _ _
  simp only
  split
  · rename_i h0; rw [← e, h0] at hb; simpa using hb
  · rw [e]; exact hb

/-- rsi: 100·up/(up+down) with Wilder averages of the gains and losses (0 if there was no gain). -/
theorem rsi_value (o : Nat → R) (p : Nat) (hc : toInt (o 0) = .ok (p : Int)) (hp : 1 ≤ p) :
    Computes rsiBatch o p (fun x j =>
      let up := wilder p (gain x) j
      let down := wilder p (loss x) j
      if up = 0 then 0 else 100 * (up / (up + down))) :=
  (rsi_run o p hc hp).congr fun x j => by
    have e1 : upSig x = gain x := funext (upSig_eq x)
    have e2 : downSig x = loss x := funext (downSig_eq x)
    simp [rsiOut, wildersRec_eq, e1, e2]

/-- rsi lies in [0, 100]. -/
theorem rsi_range (o : Nat → R) (p : Nat) (hc : toInt (o 0) = .ok (p : Int)) (hp : 1 ≤ p)
    (x : Nat → R) (N : Nat) : ∃ y, rsiBatch o (pre x N) = .ok (.okay, pre y (N - p)) ∧
      ∀ j, 0 ≤ y j ∧ y j ≤ 100 := by
  refine ⟨_, rsi_value o p hc hp x N, fun j => ?_⟩
  have h1 := wilder_nonneg p hp (gain x) j (fun k _ => gain_nonneg x k)
  have h2 := wilder_nonneg p hp (loss x) j (fun k _ => loss_nonneg x k)
  simp only
  split
  · constructor <;> norm_num
  · rename_i h
    have h3 : 0 < wilder p (gain x) j := lt_of_le_of_ne h1 (Ne.symm h)
    have h4 : 0 ≤ wilder p (gain x) j / (wilder p (gain x) j + wilder p (loss x) j) := by positivity
    have h5 : wilder p (gain x) j / (wilder p (gain x) j + wilder p (loss x) j) ≤ 1 := by
      rw [div_le_one (by linarith)]; linarith
    constructor <;> nlinarith

/-- cmo: 100·(gains - losses)/(gains + losses) over the window (0 if there was no move). -/
theorem cmo_value (o : Nat → R) (p : Nat) (hc : toInt (o 0) = .ok (p : Int)) (hp : 1 ≤ p) :
    Computes cmoBatch o p (fun x j =>
      let up := winSum p (gain x) j
      let down := winSum p (loss x) j
      if up + down = 0 then 0 else 100 * (up - down) / (up + down)) :=
  (cmo_run o p hc hp).congr fun x j => by
    have e1 : upSig x = gain x := funext (upSig_eq x)
    have e2 : downSig x = loss x := funext (downSig_eq x)
    simp [cmoOut, slideS_eq _ p j hp, e1, e2]

/-- cmo lies in [-100, 100]. -/
theorem cmo_range (o : Nat → R) (p : Nat) (hc : toInt (o 0) = .ok (p : Int)) (hp : 1 ≤ p)
    (x : Nat → R) (N : Nat) : ∃ y, cmoBatch o (pre x N) = .ok (.okay, pre y (N - p)) ∧
      ∀ j, -100 ≤ y j ∧ y j ≤ 100 := by
  refine ⟨_, cmo_value o p hc hp x N, fun j => ?_⟩
  have h1 : 0 ≤ winSum p (gain x) j := sum_nonneg fun k _ => gain_nonneg x _
  have h2 : 0 ≤ winSum p (loss x) j := sum_nonneg fun k _ => loss_nonneg x _
  simp only
  split
  · constructor <;> norm_num
  · rename_i h
    have h3 : 0 < winSum p (gain x) j + winSum p (loss x) j := lt_of_le_of_ne (by linarith) (Ne.symm h)
    rw [le_div_iff₀ h3, div_le_iff₀ h3]
    constructor <;> linarith

/-- tr: the largest of high - low, |high - previous close|, |low - previous close|. -/
theorem tr_value [LawfulAbs R] (o : Nat → R) : Computes trBatch o 0 Spec.trueRange :=
  (tr_run o).congr fun x i => trSig_eq x i

/-- tr is non-negative when low ≤ high. -/
theorem tr_nonneg [LawfulAbs R] (o : Nat → R) (x : Nat → HLC R) (hx : ∀ i, (x i).low ≤ (x i).high) (N : Nat) :
    ∃ y, trBatch o (pre x N) = .ok (.okay, pre y N) ∧ ∀ j, 0 ≤ y j :=
  ⟨_, tr_value o x N, fun j => trueRange_nonneg x j (hx j)⟩

/-- atr: Wilder's smoothing of the true range. -/
theorem atr_value [LawfulAbs R] (o : Nat → R) (p : Nat) (hc : toInt (o 0) = .ok (p : Int)) (hp : 1 ≤ p) :
    Computes atrBatch o (p - 1) (fun x => wilder p (Spec.trueRange x)) :=
  (atr_run o p hc hp).congr fun x j => by
    rw [wildersRec_eq, show trSig x = Spec.trueRange x from funext (trSig_eq x)]

/-- … and so for every chunking of the stream. -/
theorem atr_stream_value [LawfulAbs R] (o : Nat → R) (p : Nat) (hc : toInt (o 0) = .ok (p : Int)) (hp : 1 ≤ p) :
    (atr (R := R)).StreamComputes o (p - 1) (fun x => wilder p (Spec.trueRange x)) :=
  StreamComputes.congr (atr_stream_run o p hc hp) fun x j => by
    rw [atrVal_eq, show trSig x = Spec.trueRange x from funext (trSig_eq x)]

/-- atr: stream and batch agree for every chunking (exact arithmetic: the stream multiplies by 1/period where the
batch divides by period). -/
theorem atr_stream_eq_batch (o : Nat → R) (p : Nat) (hc : toInt (o 0) = .ok (p : Int)) (hp : 1 ≤ p) :
    (atr (R := R)).StreamEqBatch o (p - 1) :=
  streamEqBatch_of (val := fun x => wilder p (trSig x)) ((atr_run o p hc hp).congr fun _ j => wildersRec_eq _ _ j)
    (StreamComputes.congr (atr_stream_run o p hc hp) fun x j => atrVal_eq p x j)

/-- atr is non-negative when low ≤ high. -/
theorem atr_nonneg [LawfulAbs R] (o : Nat → R) (p : Nat) (hc : toInt (o 0) = .ok (p : Int)) (hp : 1 ≤ p)
    (x : Nat → HLC R) (hx : ∀ i, (x i).low ≤ (x i).high) (N : Nat) :
    ∃ y, atrBatch o (pre x N) = .ok (.okay, pre y (N - (p - 1))) ∧ ∀ j, 0 ≤ y j :=
  ⟨_, atr_value o p hc hp x N, fun j => wilder_nonneg p hp _ j fun k _ => trueRange_nonneg x k (hx k)⟩

/-- natr: atr in percent of the close of the same bar (0 where atr is 0). -/
theorem natr_value [LawfulAbs R] (o : Nat → R) (p : Nat) (hc : toInt (o 0) = .ok (p : Int)) (hp : 1 ≤ p) :
    Computes natrBatch o (p - 1) (fun x j =>
      let a := wilder p (Spec.trueRange x) j
      if a = 0 then 0 else 100 * a / (x (j + (p - 1))).close) :=
  (natr_run o p hc hp).congr fun x j => by
    rw [wildersRec_eq, show trSig x = Spec.trueRange x from funext (trSig_eq x)]
    simp [natrOut]

end Field

/- Concrete runs and instances of the hypotheses. -/
example : toInt (opts [2] 0) = .ok ((2 : Nat) : Int) ∧ 1 ≤ 2 ∧ 2 * (2 + 1) ≤ 2147483647 := by decide +kernel
example : wmaBatch (opts [3]) [1, 2, 4, 3] = .ok (.okay, [17/6, 19/6]) := by decide +kernel
example : toInt (opts [46341] 0) = .ok ((46341 : Nat) : Int) ∧ 2147483647 < 46341 * (46341 + 1) := by
  decide +kernel
example : vwmaBatch (opts [2]) [⟨1, 1⟩, ⟨4, 2⟩, ⟨2, 2⟩] = .ok (.okay, [3, 3]) := by decide +kernel
example : rsiBatch (opts [2]) [1, 3, 2, 3] = .ok (.okay, [200/3, 80]) := by decide +kernel
example : cmoBatch (opts [2]) [1, 3, 2, 3] = .ok (.okay, [100/3, 0]) := by decide +kernel
example : trBatch (opts []) [⟨5, 3, 4⟩, ⟨9, 7, 8⟩, ⟨8, 1, 2⟩] = .ok (.okay, [2, 5, 7]) := by decide +kernel
example : atrBatch (opts [2]) [⟨5, 3, 4⟩, ⟨9, 7, 8⟩, ⟨8, 1, 2⟩] = .ok (.okay, [7/2, 21/4]) := by decide +kernel
example : atrRef (opts [2]) [⟨5, 3, 4⟩, ⟨9, 7, 8⟩, ⟨8, 1, 2⟩] = .ok (.okay, [7/2, 21/4]) := by decide +kernel
example : (atr (R := Rat)).session (opts [2]) [[⟨5, 3, 4⟩], [⟨9, 7, 8⟩, ⟨8, 1, 2⟩]] = .ok (.okay, 2, [7/2, 21/4]) := by
  decide +kernel
example : natrBatch (opts [2]) [⟨5, 3, 4⟩, ⟨9, 7, 8⟩, ⟨8, 1, 2⟩] = .ok (.okay, [175/4, 525/2]) := by decide +kernel

end Verif
