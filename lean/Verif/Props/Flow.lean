/-
C45-C47 (fi, mgdyn, pvt, kc, tsi, rmi, vwap, evwma, vi).
-/
import Verif.Proof.Flow
import Verif.Proof.WindowField
import Verif.Props.Osc
import Verif.Proof.EmaField
import Verif.Spec.Flow
import Verif.Core.RatInst

set_option linter.unusedSectionVars false
set_option linter.unusedSimpArgs false
set_option linter.unusedVariables false

namespace Verif
open Spec Finset

section Any
variable {R : Type} [Num R]

/-! ### Any arithmetic: contract, refusal, streams -/

/-- fi, every period ≥ 1. -/
theorem fi_contract (o : Nat → R) (h : ¬ o 0 < c! 1) : Contract fiStart fiBatch o 1 := (fi_run o h).contract rfl
/-- mgdyn, whatever its option. -/
theorem mgdyn_contract (o : Nat → R) : Contract mgdynStart mgdynBatch o 0 := (mgdyn_run o).contract rfl
theorem pvt_contract (o : Nat → R) : Contract pvtStart pvtBatch o 1 := (pvt_run o).contract rfl
theorem kc_contract (o : Nat → R) (h0 : ¬ o 0 < c! 1) (h1 : ¬ o 1 < c! 0) : Contract kcStart kcBatch o 0 :=
  (kc_run o h0 h1).contract rfl
theorem tsi_contract (o : Nat → R) (h0 : ¬ o 0 < c! 1) (h1 : ¬ o 1 < c! 1) : Contract tsiStart tsiBatch o 1 :=
  (tsi_run o h0 h1).contract rfl
theorem evwma_contract (o : Nat → R) (p : Nat) (hc : toInt (o 0) = .ok (p : Int)) (hp : 1 ≤ p) (hg : ¬ o 1 ≤ c! 0) :
    Contract evwmaStart evwmaBatch o (p - 1) := (evwma_run o p hc hp hg).contract (evwmaStart_ok hc hp)

theorem fi_refuses (o : Nat → R) (h : o 0 < c! 1) : Refuses fiBatch o ∧ (fi (R := R)).NewRefuses o :=
  ⟨fun xs => by simp [fiBatch, h], by simp [Indicator.NewRefuses, fi, fiNew, h]⟩
theorem kc_refuses (o : Nat → R) (h : o 0 < c! 1 ∨ o 1 < c! 0) : Refuses kcBatch o := by
  intro xs
  by_cases h0 : o 0 < c! 1
  · simp [kcBatch, h0]
  · simp [kcBatch, h0, h.resolve_left h0]
theorem kc_stream_refuses (o : Nat → R) (h : o 0 < c! 0 ∨ o 1 < c! 0) : (kc (R := R)).NewRefuses o := by
  by_cases h0 : o 0 < c! 0
  · simp [Indicator.NewRefuses, kc, kcNew, h0]
  · simp [Indicator.NewRefuses, kc, kcNew, h0, h.resolve_left h0]
theorem tsi_refuses (o : Nat → R) (h : o 0 < c! 1 ∨ o 1 < c! 1) : Refuses tsiBatch o ∧ (tsi (R := R)).NewRefuses o := by
  by_cases h0 : o 0 < c! 1
  · exact ⟨fun xs => by simp [tsiBatch, h0], by simp [Indicator.NewRefuses, tsi, tsiNew, h0]⟩
  · exact ⟨fun xs => by simp [tsiBatch, h0, h.resolve_left h0], by
      simp [Indicator.NewRefuses, tsi, tsiNew, h0, h.resolve_left h0]⟩
theorem rmi_refuses (o : Nat → R) (h : o 0 < c! 1 ∨ o 1 < c! 1) : Refuses rmiBatch o ∧ (rmi (R := R)).NewRefuses o := by
  by_cases h0 : o 0 < c! 1
  · exact ⟨fun xs => by simp [rmiBatch, h0], by simp [Indicator.NewRefuses, rmi, rmiNew, h0]⟩
  · exact ⟨fun xs => by simp [rmiBatch, h0, h.resolve_left h0], by
      simp [Indicator.NewRefuses, rmi, rmiNew, h0, h.resolve_left h0]⟩
theorem vwap_refuses (o : Nat → R) (h : o 0 < c! 1) : Refuses vwapBatch o ∧ (vwap (R := R)).NewRefuses o :=
  ⟨fun xs => by simp [vwapBatch, h], by simp [Indicator.NewRefuses, vwap, vwapNew, h]⟩
theorem evwma_refuses (o : Nat → R) (p : Int) (hc : toInt (o 0) = .ok p) (h : p < 1 ∨ o 1 ≤ c! 0) :
    Refuses evwmaBatch o ∧ (evwma (R := R)).NewRefuses o := by
  by_cases h0 : p < 1
  · exact ⟨fun xs => by simp [evwmaBatch, hc, h0], by simp [Indicator.NewRefuses, evwma, evwmaNew, hc, h0]⟩
  · exact ⟨fun xs => by simp [evwmaBatch, hc, h0, h.resolve_left h0], by
      simp [Indicator.NewRefuses, evwma, evwmaNew, hc, h0, h.resolve_left h0]⟩
theorem vi_refuses (o : Nat → R) (p : Int) (hc : toInt (o 0) = .ok p) (h : p < 1) : Refuses viBatch o := by
  intro xs; simp [viBatch, hc, h]
theorem vi_stream_refuses (o : Nat → R) (h : o 0 < c! 1) : (vi (R := R)).NewRefuses o := by
  simp [Indicator.NewRefuses, vi, viNew, h]

/-- vi rejects every input of at most `period` bars as if the option were wrong, instead of writing nothing. -/
theorem vi_short_violates (o : Nat → R) (p : Nat) (hc : toInt (o 0) = .ok (p : Int)) (xs : List (HLC R))
    (hN : xs.length ≤ p) : viBatch o xs = .ok (.invalidOption, []) := by
  simp [viBatch, hc, hN]

/-- vi on more than `period` bars. (Missing: shorter inputs, see `vi_short_violates`.) -/
theorem vi_contract_partial (o : Nat → R) (p : Nat) (hc : toInt (o 0) = .ok (p : Int)) (hp : 1 ≤ p) :
    viStart o = .ok (p : Int) ∧
    (∀ xs : List (HLC R), p < xs.length → ∃ out, viBatch o xs = .ok (.okay, out) ∧ out.length = xs.length - p) ∧
    Causal viBatch o := by
  have : Inhabited R := ⟨c! 0⟩
  have : Inhabited (HLC R) := ⟨⟨c! 0, c! 0, c! 0⟩⟩
  refine ⟨hc, fun xs hN => ?_, fun xs ys out h => ?_⟩
  · obtain ⟨x, hx⟩ := exists_pre xs
    refine ⟨_, by rw [hx]; exact vi_run o p hc hp x _ hN, by simp⟩
  · by_cases hN : xs.length ≤ p
    · rw [vi_short_violates o p hc xs hN] at h; cases h
    obtain ⟨x, hx⟩ := exists_pre (xs ++ ys)
    have hxs : xs = pre x xs.length := by
      have e := congrArg (List.take xs.length) hx
      rw [List.take_left] at e
      rw [List.length_append, pre_add, List.take_left' (by simp)] at e
      exact e
    rw [hxs, vi_run o p hc hp x _ (by omega)] at h
    cases h
    refine ⟨seg (viVal p x) (xs.length - p) ys.length, ?_⟩
    rw [hx, List.length_append, vi_run o p hc hp x _ (by omega), ← pre_add,
      show xs.length + ys.length - p = xs.length - p + ys.length by omega]

theorem fi_chunks (o : Nat → R) : (fi (R := R)).ChunkInvariant o := by
  apply chunkInvariant_of'
  intro k p s h
  change fiNew o = _ at h
  unfold fiNew at h
  split at h
  · cases h
  · cases h; exact ordered_m1 _ _ _
theorem mgdyn_chunks (o : Nat → R) : (mgdyn (R := R)).ChunkInvariant o := chunkInvariant_of (fun k => mgdynPhases_ordered (R := R) k) o
theorem pvt_chunks (o : Nat → R) : (pvt (R := R)).ChunkInvariant o := by
  apply chunkInvariant_of'
  intro k p s h
  cases h; exact pvtPhases_ordered
theorem kc_chunks (o : Nat → R) : (kc (R := R)).ChunkInvariant o := chunkInvariant_of kcPhases_ordered o
theorem tsi_chunks (o : Nat → R) : (tsi (R := R)).ChunkInvariant o := by
  apply chunkInvariant_of'
  intro k p s h
  change tsiNew o = _ at h
  unfold tsiNew at h
  split at h
  · cases h
  · simp only [pure_eq] at h
    split at h
    · cases h
    · cases h; exact ordered_m1 _ _ _
theorem rmi_chunks (o : Nat → R) : (rmi (R := R)).ChunkInvariant o := chunkInvariant_of rmiPhases_ordered o
theorem vwap_chunks (o : Nat → R) : (vwap (R := R)).ChunkInvariant o := chunkInvariant_of vwapPhases_ordered o
theorem evwma_chunks (o : Nat → R) : (evwma (R := R)).ChunkInvariant o := chunkInvariant_of evwmaPhases_ordered o
theorem vi_chunks (o : Nat → R) : (vi (R := R)).ChunkInvariant o := chunkInvariant_of (fun _ => single_ordered _) o

theorem mgdyn_stream_eq_batch (o : Nat → R) : (mgdyn (R := R)).StreamEqBatch o 0 :=
  have : Inhabited R := ⟨c! 0⟩
  streamEqBatch_of (mgdyn_run o) (mgdyn_stream_run o)
theorem kc_stream_eq_batch (o : Nat → R) (h0 : ¬ o 0 < c! 1) (h0' : ¬ o 0 < c! 0) (h1 : ¬ o 1 < c! 0) :
    (kc (R := R)).StreamEqBatch o 0 :=
  have : Inhabited (HLC R) := ⟨⟨c! 0, c! 0, c! 0⟩⟩
  streamEqBatch_of (kc_run o h0 h1) (kc_stream_run o h0' h1)
theorem tsi_stream_eq_batch (o : Nat → R) (h0 : ¬ o 0 < c! 1) (h1 : ¬ o 1 < c! 1) : (tsi (R := R)).StreamEqBatch o 1 :=
  have : Inhabited R := ⟨c! 0⟩
  streamEqBatch_of (tsi_run o h0 h1) (tsi_stream_run o h0 h1)
/-- evwma, every period below INT_MAX. -/
theorem evwma_stream_eq_batch_partial (o : Nat → R) (p : Nat) (hc : toInt (o 0) = .ok (p : Int)) (hp : 1 ≤ p)
    (hb : p < 2147483647) (hg : ¬ o 1 ≤ c! 0) : (evwma (R := R)).StreamEqBatch o (p - 1) :=
  have : Inhabited (CV R) := ⟨⟨c! 0, c! 0⟩⟩
  streamEqBatch_of (evwma_run o p hc hp hg) (evwma_stream_run o p hc hp hb hg)
/-- … with which `period + 1` overflows. -/
theorem evwma_stream_overflow (o : Nat → R) (hc : toInt (o 0) = .ok 2147483647) (hg : ¬ o 1 ≤ c! 0) :
    (evwma (R := R)).new o = .error .intRange := by
  have hb : i32 (2147483647 + 1) = .error .intRange := by unfold i32; rw [if_neg (by omega)]
  show evwmaNew o = _
  unfold evwmaNew
  rw [hc, bind_ok, if_neg (by omega), if_neg hg, evwmaStart_ok (p := 2147483647) hc (by omega), bind_ok, hb]
  rfl
/-- vi on more than `period` bars, where integers compare with the option as with its integer part. -/
theorem vi_stream_eq_batch_partial (o : Nat → R) (p : Nat) (hc : toInt (o 0) = .ok (p : Int)) (hp : 1 ≤ p) (h0 : ¬ o 0 < c! 1)
    (hcmp : CmpInt (o 0) p) (chunks : List (List (HLC R))) (hN : p < chunks.flatten.length) :
    ∃ out, viBatch o chunks.flatten = .ok (.okay, out) ∧
      (vi (R := R)).session o chunks = .ok (.okay, (chunks.flatten.length : Int) - p, out) := by
  have : Inhabited (HLC R) := ⟨⟨c! 0, c! 0, c! 0⟩⟩
  obtain ⟨x, hx⟩ := exists_pre chunks.flatten
  generalize chunks.flatten.length = N at hx hN ⊢
  exact ⟨_, by rw [hx]; exact vi_run o p hc hp x _ hN, vi_stream_run o p hc hp h0 hcmp x _ chunks hx⟩

/-- pvt: the stream writes what the batch call writes if no bar has volume zero and no value is zero. (Missing: other
inputs, where they differ, see `pvt_stream_violates`.) -/
theorem pvt_stream_eq_batch_partial (o : Nat → R) (chunks : List (List (CV R)))
    (hv : ∀ r ∈ chunks.flatten, (r.volume == c! 0) = false) (out : List R)
    (hout : pvtBatch o chunks.flatten = .ok (.okay, out)) (hz : ∀ v ∈ out, (v == c! 0) = false) :
    (pvt (R := R)).session o chunks = .ok (.okay, (chunks.flatten.length : Int) - 1, out) := by
  have : Inhabited (CV R) := ⟨⟨c! 0, c! 0⟩⟩
  obtain ⟨x, hx⟩ := exists_pre chunks.flatten
  generalize chunks.flatten.length = N at hx ⊢
  have hs := pvt_stream_run o x N chunks hx
  rw [hx, pvt_run o x N] at hout
  cases hout
  rw [hx] at hv
  have hv' : ∀ n, n < N → ((x n).volume == c! 0) = false := fun n hn => hv _ (List.mem_map.2 ⟨n, List.mem_range.2 hn, rfl⟩)
  have hz' : ∀ n, n < N - 1 → (pvtRec x n == c! 0) = false := fun n hn => hz _ (List.mem_map.2 ⟨n, List.mem_range.2 hn, rfl⟩)
  have e : ∀ n, n < N - 1 → pvtRecS x n = pvtRec x n := by
    intro n hn
    induction n with
    | zero => rfl
    | succ n ih =>
      rw [pvtRecS, pvtRec, ih (by omega), if_pos (by simp [both, hv' (n + 2) (by omega), hz' n (by omega)]),
        if_pos (by simp [both, hv' (n + 2) (by omega), hv' (n + 1) (by omega)])]
  rw [hs, show pre (pvtRecS x) (N - 1) = pre (pvtRec x) (N - 1) from
    List.map_congr_left fun n hn => e n (List.mem_range.1 hn)]
  rfl

/-- The value of pvt at a bar is 0 if that bar or the bar before has volume zero. -/
theorem pvt_zero_volume (o : Nat → R) : ∃ y : (Nat → CV R) → Nat → R, Computes pvtBatch o 1 y ∧
    ∀ x n, (((x (n + 1)).volume == c! 0) = true ∨ ((x n).volume == c! 0) = true) → y x n = c! 0 := by
  refine ⟨_, pvt_run o, fun x n h => ?_⟩
  have hb : both (x (n + 1)).volume (x n).volume = false := by
    rcases h with h | h <;> simp [both, h]
  match n with
  | 0 => exact if_neg (by simp [hb])
  | n + 1 => exact if_neg (by simp [hb])

/-- `ti_pvt_ref` reads the first two bars whatever the size. -/
theorem pvt_ref_violates (o : Nat → R) (xs : List (CV R)) (h : xs.length < 2) : pvtRef o xs = .error .oobRead := by
  unfold pvtRef
  simp only [pvtStart, bind_ok]
  rw [rd_oob xs 1 (by omega)]
  rfl
/-- … and elsewhere agrees with the batch call if no volume is zero. -/
theorem pvt_ref_eq_batch_partial (o : Nat → R) (x : Nat → CV R) (hv : ∀ n, ((x n).volume == c! 0) = false) (N : Nat)
    (hN : 2 ≤ N) : pvtRef o (pre x N) = pvtBatch o (pre x N) := by
  have e : pvtRecR x = pvtRec x := by
    funext n
    induction n with
    | zero => rw [pvtRecR, pvtRec, if_pos (by simp [both, hv])]
    | succ n ih => rw [pvtRecR, pvtRec, if_pos (by simp [both, hv]), ih]
  rw [pvtRef_run o x N hN, pvt_run o x N, e]

/-- `ti_fi_ref` does not check its option: a period below 1 is accepted and the unsmoothed force returned. -/
theorem fi_ref_violates (o : Nat → R) (p : Int) (hc : toInt (o 0) = .ok p) (hp : p < 1) :
    Computes fiRef o 1 fiSig := by
  intro x N
  unfold fiRef
  simp only [fiStart, bind_ok, length_pre, pure_eq]
  by_cases hN : (N : Int) ≤ 1
  · rw [if_pos hN, show N - 1 = 0 by omega]; rfl
  rw [if_neg hN]
  refine forUp_bind 1 N (fun i => pre (fiSig x) (i - 1)) rfl rfl rfl (by omega) ?_ ?_
  · intro i h1 h2
    rw [rd_at i rfl h2, bind_ok, bind_ok, rd_at (i - 1) (by omega) (by omega), bind_ok]
    have hv : (x i).volume * ((x i).close - (x (i - 1)).close) = fiSig x (i - 1) := by
      unfold fiSig; rw [show i - 1 + 1 = i by omega]
    rw [hv, wr_pre _ _ _ _ (by omega) rfl, show i - 1 + 1 = i + 1 - 1 by omega]
  · simp [emaInPlace, emaBatch, hc, hp]

/-! ### Arithmetic that is exact on small integers -/

section IntEx
variable [IntExact R]

theorem rmi_cmp (v : R) (p : Nat) (ho : v = ((p : Int) : R)) (hb : p ≤ 2147483647) (N : Nat) :
    ((N : Int) : R) < v + c! 1 ↔ N < p + 1 := by
  rw [ho, IntExact.add _ _ (by unfold Small; omega) (by unfold Small; omega) (by unfold Small; omega),
    IntExact.lt _ _ (by omega) (by unfold Small; omega)]
  omega

/-- rmi, integer lookback periods. (Missing: fractional ones, see `rmi_violates`.) -/
theorem rmi_contract_partial (o : Nat → R) (p : Nat) (h0 : ¬ o 0 < c! 1) (ho : o 1 = ((p : Int) : R)) (hp : 1 ≤ p)
    (hb : p ≤ 2147483647) : Contract rmiStart rmiBatch o p := by
  have hc : toInt (o 1) = .ok (p : Int) := by rw [ho]; exact toInt_cast _ (by omega)
  have h1 : ¬ o 1 < c! 1 := by rw [ho, IntExact.lt _ _ (by omega) (by unfold Small; omega)]; omega
  exact (rmi_run o p h0 h1 hc (rmi_cmp _ p ho hb)).contract hc

/-- A stream's `lookback + 1` does not fit an `int` for the largest lookback. -/
theorem rmi_stream_overflow (o : Nat → R) (h0 : ¬ o 0 < c! 1) (ho : o 1 = ((2147483647 : Int) : R)) :
    (rmi (R := R)).new o = .error .intRange := by
  have hc : toInt (o 1) = .ok (2147483647 : Int) := by rw [ho]; exact toInt_cast _ (by omega)
  have h1 : ¬ o 1 < c! 1 := by rw [ho, IntExact.lt _ _ (by omega) (by unfold Small; omega)]; omega
  have hr : toInt (o 1 + c! 1) = .error .intRange := by
    rw [ho, IntExact.add _ _ (by unfold Small; omega) (by unfold Small; omega) (by unfold Small; omega)]
    unfold toInt
    rw [IntExact.trunc _ (by unfold Small; omega)]
    unfold i32
    rw [if_neg (by omega)]
  show rmiNew o = _
  unfold rmiNew rmiStart
  rw [if_neg h0, if_neg h1, hc, bind_ok, hr]
  rfl

end IntEx
end Any

section Exact
variable {R : Type} [Field R] [LinearOrder R] [IsStrictOrderedRing R] [CMath R]

/-! ### Exact arithmetic: values -/

theorem not_lt_one' {v : R} (h : 1 ≤ v) : ¬ v < ((1 : Int) : R) := by simpa using h
theorem not_lt_zero' {v : R} (h : 0 ≤ v) : ¬ v < ((0 : Int) : R) := by simpa using h

theorem fiRec_eq (a : R) (f : Nat → R) (n : Nat) : fiRec a f n = ema a f n := by
  induction n with
  | zero => simp [fiRec, ema]
  | succ n ih => rw [fiRec, ema, ih]; ring
theorem tsiRec_eq (p : R) (y : Nat → R) (n : Nat) : tsiRec p y n = ema (2 / (1 + p)) y n := by
  induction n with
  | zero => rfl
  | succ n ih => rw [tsiRec, tsiEma, ema, ih]; push_cast; ring
theorem rmiRecS_eq (p : R) (y : Nat → R) (n : Nat) : rmiRecS p y n = ema (2 / (1 + p)) y n := by
  induction n with
  | zero => rfl
  | succ n ih => rw [rmiRecS, ema, ih]; push_cast; ring
theorem fiPer_eq (o : Nat → R) : fiPer o = 2 / (o 0 + 1) := by simp [fiPer]
theorem stdMax_eq (a b : R) : stdMax a b = max a b := by
  unfold stdMax
  split
  · rw [max_eq_right (le_of_lt ‹_›)]
  · rw [max_eq_left (not_lt.1 ‹_›)]
theorem stdMin_eq (a b : R) : stdMin a b = min a b := by
  unfold stdMin
  split
  · rw [min_eq_right (le_of_lt ‹_›)]
  · rw [min_eq_left (not_lt.1 ‹_›)]
/-- fi is the exponential smoothing of Elder's force. -/
theorem fi_value (o : Nat → R) (h : 1 ≤ o 0) : Computes fiBatch o 1 (fun x => ema (2 / (o 0 + 1)) (force x)) :=
  (fi_run o (not_lt_one' h)).congr fun x n => by rw [fiRec_eq, fiPer_eq]; rfl
theorem fi_stream_value (o : Nat → R) (h : 1 ≤ o 0) :
    (fi (R := R)).StreamComputes o 1 (fun x => ema (2 / (o 0 + 1)) (force x)) :=
  StreamComputes.congr (fi_stream_run o (not_lt_one' h)) fun x n => by rw [emaRec_eq, fiPer_eq]; rfl
theorem fi_stream_eq_batch (o : Nat → R) (h : 1 ≤ o 0) : (fi (R := R)).StreamEqBatch o 1 :=
  have : Inhabited (CV R) := ⟨⟨0, 0⟩⟩
  streamEqBatch_of (fi_value o h) (fi_stream_value o h)
/-- The reference of fi agrees with the batch call on integer periods. -/
theorem fi_ref_eq_batch_partial [LawfulTrunc R] [LawfulRound R] (o : Nat → R) (p : Nat) (ho : o 0 = (p : R)) (hp : 1 ≤ p)
    (hb : p ≤ 2147483647) (xs : List (CV R)) : fiRef o xs = fiBatch o xs := by
  have : Inhabited (CV R) := ⟨⟨0, 0⟩⟩
  obtain ⟨x, hx⟩ := exists_pre xs
  have hc : toInt (o 0) = .ok (p : Int) := by
    rw [ho]; exact_mod_cast toInt_cast (R := R) p (by omega)
  rw [hx, fiRef_run o p hc hp x _, fi_value o (by rw [ho]; exact_mod_cast hp) x _]
  congr 3
  funext n
  dsimp only
  rw [emaRec_eq, emaPer_eq, emaCoef, ho]; rfl

/-- mgdyn follows McGinley's recurrence from the first price. -/
theorem mgdyn_value (o : Nat → R) : ∃ y : (Nat → R) → Nat → R, Computes mgdynBatch o 0 y ∧ ∀ x,
    y x 0 = x 0 ∧ ∀ n, y x (n + 1) = y x n + (x (n + 1) - y x n) / (o 0 * CMath.pow (x (n + 1) / y x n) 4) :=
  ⟨_, mgdyn_run o, fun x => ⟨rfl, fun n => by simp [mgRec]⟩⟩
/-- A constant price is reproduced, whatever the option. -/
theorem mgdyn_constant (o : Nat → R) (c : R) (N : Nat) :
    mgdynBatch o (pre (fun _ => c) N) = .ok (.okay, pre (fun _ => c) N) := by
  rw [mgdyn_run o]
  have e : mgRec (o 0) (fun _ => c) = fun _ => c := by
    funext n
    induction n with
    | zero => rfl
    | succ n ih => simp [mgRec, ih]
  rw [e]; rfl

/-- pvt on inputs without zero volumes is the price-volume trend. -/
theorem pvt_value_partial (o : Nat → R) (x : Nat → CV R) (hv : ∀ n, (x n).volume ≠ 0) (N : Nat) :
    pvtBatch o (pre x N) = .ok (.okay, pre (priceVolumeTrend x) (N - 1)) := by
  have e : pvtRec x = priceVolumeTrend x := by
    funext n
    induction n with
    | zero =>
      simp only [pvtRec, both, pvtMove, priceVolumeTrend, relChange]
      simp [hv]
      ring
    | succ n ih =>
      rw [pvtRec, ih]
      simp only [both, pvtMove, priceVolumeTrend, relChange, sum_range_succ]
      simp [hv]
      ring
  rw [pvt_run o x N, e]

/-- kc: the smoothed close, and the smoothed true range above and below it. -/
theorem kc_value (o : Nat → R) (h0 : 1 ≤ o 0) (h1 : 0 ≤ o 1) (x : Nat → HLC R) (hx : ∀ n, (x n).low ≤ (x n).high) (N : Nat) :
    kcBatch o (pre x N) = .ok (.okay, pre (fun n =>
      let m := ema (2 / (o 0 + 1)) (fun k => (x k).close) n
      let t := ema (2 / (o 0 + 1)) (fun k => Spec.trueRange x k) n
      (⟨m - o 1 * t, m, m + o 1 * t⟩ : Bands R)) N) := by
  rw [kc_run o (not_lt_one' h0) (not_lt_zero' h1) x N]
  have e : kcTr x = fun k => Spec.trueRange x k := by
    funext k
    cases k with
    | zero => rfl
    | succ k =>
      have h := hx (k + 1)
      simp only [kcTr, stdMax_eq, stdMin_eq, Spec.trueRange, Nat.add_eq_zero_iff, one_ne_zero, and_false, if_false, Nat.add_sub_cancel]
      rcases le_total (x (k + 1)).high (x k).close with a | a <;> rcases le_total (x (k + 1)).low (x k).close with b | b
      · rw [max_eq_right a, min_eq_left b, abs_of_nonpos (by linarith), abs_of_nonpos (by linarith),
          max_eq_right (a := -((x (k + 1)).high - (x k).close)) (by linarith),
          max_eq_right (by linarith)]
        ring
      · have : (x k).close = (x (k + 1)).high := by linarith
        have h2 : (x (k + 1)).low = (x (k + 1)).high := by linarith
        simp [this, h2]
      · rw [max_eq_left a, min_eq_left b, abs_of_nonneg (by linarith), abs_of_nonpos (by linarith), max_eq_left]
        exact max_le (by linarith) (by linarith)
      · rw [max_eq_left a, min_eq_right b, abs_of_nonneg (by linarith), abs_of_nonneg (by linarith), max_eq_left (a := (x (k+1)).high - (x k).close) (by linarith),
          max_eq_right (by linarith)]
  have v : kcVal (fiPer o) (o 1) x = fun n =>
      let m := ema (2 / (o 0 + 1)) (fun k => (x k).close) n
      let t := ema (2 / (o 0 + 1)) (fun k => Spec.trueRange x k) n
      (⟨m - o 1 * t, m, m + o 1 * t⟩ : Bands R) := by
    funext n
    simp only [kcVal, kcOut, emaRec_eq, fiPer_eq, e]
  rw [v]; rfl

theorem coef_bounds {v : R} (h : 1 ≤ v) : 0 ≤ 2 / (v + 1) ∧ 2 / (v + 1) ≤ 1 :=
  ⟨div_nonneg (by norm_num) (by linarith), (div_le_one (by linarith)).2 (by linarith)⟩
theorem coef_bounds' {v : R} (h : 1 ≤ v) : 0 ≤ 2 / (1 + v) ∧ 2 / (1 + v) ≤ 1 := by
  rw [add_comm]; exact coef_bounds h

theorem ema_nonneg {a : R} (h0 : 0 ≤ a) (h1 : a ≤ 1) (x : Nat → R) (n : Nat) (h : ∀ k, k ≤ n → 0 ≤ x k) : 0 ≤ ema a x n := by
  induction n with
  | zero => exact h 0 le_rfl
  | succ n ih =>
    rw [ema]
    have := ih fun k hk => h k (by omega)
    nlinarith [h (n + 1) le_rfl]

/-- The bands of kc do not cross. -/
theorem kc_ordered (o : Nat → R) (h0 : 1 ≤ o 0) (h1 : 0 ≤ o 1) (x : Nat → HLC R) (hx : ∀ n, (x n).low ≤ (x n).high) (N : Nat) :
    ∃ y : Nat → Bands R, kcBatch o (pre x N) = .ok (.okay, pre y N) ∧
      ∀ n, (y n).lower ≤ (y n).middle ∧ (y n).middle ≤ (y n).upper := by
  refine ⟨_, kc_value o h0 h1 x hx N, fun n => ?_⟩
  have ht := ema_nonneg (coef_bounds h0).1 (coef_bounds h0).2 (fun k => Spec.trueRange x k) n
    fun k _ => trueRange_nonneg x k (hx k)
  have := mul_nonneg h1 ht
  constructor <;> simp only <;> linarith

/-- tsi is the true strength index. -/
theorem tsi_value [LawfulAbs R] (o : Nat → R) (h0 : 1 ≤ o 0) (h1 : 1 ≤ o 1) :
    Computes tsiBatch o 1 (trueStrength (o 0) (o 1)) :=
  (tsi_run o (not_lt_one' h0) (not_lt_one' h1)).congr fun x n => by
    have e1 : tsiRec (o 0) (tsiMove x) = ema (2 / (1 + o 0)) (priceChange x) := funext fun k => tsiRec_eq _ _ k
    have e2 : tsiRec (o 0) (fun k => CMath.fabs (tsiMove x k)) = ema (2 / (1 + o 0)) (fun k => |priceChange x k|) :=
      funext fun k => by
        rw [tsiRec_eq, show (fun k => CMath.fabs (tsiMove x k)) = fun k => |priceChange x k| from funext fun k => LawfulAbs.fabs_eq _]
    simp only [tsiVal, tsiOut, tsiE, e1, e2, tsiRec_eq, trueStrength, beq_iff_eq, Int.cast_zero]
    split
    · rename_i hz
      rw [if_pos (show smooth2 (o 0) (o 1) (fun k => |priceChange x k|) n = 0 from hz), mul_zero]
    · rename_i hz
      rw [if_neg (show ¬ smooth2 (o 0) (o 1) (fun k => |priceChange x k|) n = 0 from hz), smooth2, smooth2]
      push_cast; rfl
theorem tsi_stream_value [LawfulAbs R] (o : Nat → R) (h0 : 1 ≤ o 0) (h1 : 1 ≤ o 1) :
    (tsi (R := R)).StreamComputes o 1 (trueStrength (o 0) (o 1)) := by
  have : Inhabited R := ⟨0⟩
  intro x N chunks hx
  obtain ⟨out, ho, hs⟩ := tsi_stream_eq_batch o (not_lt_one' h0) (not_lt_one' h1) chunks
  rw [hx] at ho
  cases ho.symm.trans (tsi_value o h0 h1 x N)
  rw [hs, hx, length_pre]

theorem ema_abs_le {a : R} (h0 : 0 ≤ a) (h1 : a ≤ 1) (y z : Nat → R) (n : Nat) (h : ∀ k, k ≤ n → |y k| ≤ z k) :
    |ema a y n| ≤ ema a z n := by
  induction n with
  | zero => exact h 0 le_rfl
  | succ n ih =>
    have a1 := abs_le.1 (ih fun k hk => h k (by omega))
    have a2 := abs_le.1 (h (n + 1) le_rfl)
    rw [ema, ema, abs_le]
    constructor <;> nlinarith

/-- tsi lies between -100 and 100. -/
theorem tsi_range [LawfulAbs R] (o : Nat → R) (h0 : 1 ≤ o 0) (h1 : 1 ≤ o 1) :
    ∃ y : (Nat → R) → Nat → R, Computes tsiBatch o 1 y ∧ ∀ x n, -100 ≤ y x n ∧ y x n ≤ 100 := by
  refine ⟨_, tsi_value o h0 h1, fun x n => ?_⟩
  unfold trueStrength
  split
  · constructor <;> norm_num
  rename_i hne
  have hb := ema_abs_le (coef_bounds' h1).1 (coef_bounds' h1).2 (ema (2 / (1 + o 0)) (priceChange x))
    (ema (2 / (1 + o 0)) (fun k => |priceChange x k|)) n fun k _ => ema_abs_le (coef_bounds' h0).1 (coef_bounds' h0).2 _ _ k fun _ _ => le_rfl
  change |smooth2 (o 0) (o 1) (priceChange x) n| ≤ smooth2 (o 0) (o 1) (fun k => |priceChange x k|) n at hb
  have hpos : 0 < smooth2 (o 0) (o 1) (fun k => |priceChange x k|) n := lt_of_le_of_ne ((abs_nonneg _).trans hb) (Ne.symm hne)
  have hq := abs_le.1 hb
  have q1 : smooth2 (o 0) (o 1) (priceChange x) n / smooth2 (o 0) (o 1) (fun k => |priceChange x k|) n ≤ 1 := (div_le_one hpos).2 hq.2
  have q2 : -1 ≤ smooth2 (o 0) (o 1) (priceChange x) n / smooth2 (o 0) (o 1) (fun k => |priceChange x k|) n := by
    rw [le_div_iff₀ hpos]; linarith
  constructor <;> linarith

/-- The reference of tsi agrees with the batch call on integer periods where the smoothed absolute change is not 0. -/
theorem tsi_ref_eq_batch_partial [LawfulAbs R] [LawfulTrunc R] [LawfulRound R] (o : Nat → R) (p q : Nat) (h0 : o 0 = (p : R))
    (h1 : o 1 = (q : R)) (hp : 1 ≤ p) (hq : 1 ≤ q) (hb : p ≤ 2147483647) (hb' : q ≤ 2147483647) (x : Nat → R)
    (hne : ∀ n, smooth2 (p : R) q (fun k => |priceChange x k|) n ≠ 0) (N : Nat) : tsiRef o (pre x N) = tsiBatch o (pre x N) := by
  have c0 : toInt (o 0) = .ok (p : Int) := by rw [h0]; exact_mod_cast toInt_cast (R := R) p (by omega)
  have c1 : toInt (o 1) = .ok (q : Int) := by rw [h1]; exact_mod_cast toInt_cast (R := R) q (by omega)
  have l0 : (1 : R) ≤ o 0 := by rw [h0]; exact_mod_cast hp
  have l1 : (1 : R) ≤ o 1 := by rw [h1]; exact_mod_cast hq
  rw [tsiRef_run o p q (not_lt_one' l0) (not_lt_one' l1) c0 hp c1 hq x N, tsi_value o l0 l1 x N]
  congr 3
  funext n
  have e : ∀ y : Nat → R, emaRec (emaPer q) (emaRec (emaPer p) y) n = smooth2 (p : R) q y n := by
    intro y
    rw [emaRec_eq, show emaRec (emaPer (p : Int)) y = ema (emaCoef p) y from funext fun k => by rw [emaRec_eq, emaPer_eq],
      emaPer_eq, smooth2, emaCoef, emaCoef, add_comm (1 : R), add_comm (1 : R)]
  have ea : (fun k => CMath.fabs (tsiMove x k)) = fun k => |priceChange x k| := funext fun k => LawfulAbs.fabs_eq _
  dsimp only
  rw [e, ea, e, trueStrength, h0, h1, if_neg (hne n), mul_div_assoc]
  push_cast
  rfl

/-! ### Options and their integer part -/

theorem toInt_within [LawfulTrunc R] [LawfulRound R] {v : R} {p : Nat} (hc : toInt v = .ok (p : Int)) (hp : 1 ≤ p) :
    (p : R) ≤ v ∧ v < p + 1 := by
  have ht := (toInt_trunc hc).1
  have h0 : 0 ≤ v := by
    by_contra hn
    have := (LawfulRound.trunc_neg v (not_le.1 hn)).1
    rw [ht] at this
    have h1 : (1 : R) ≤ ((p : Int) : R) := by exact_mod_cast hp
    linarith
  have := LawfulRound.trunc_nonneg v h0
  rw [ht] at this
  exact_mod_cast this

theorem toInt_of_within [LawfulTrunc R] [LawfulRound R] {v : R} {p : Nat} (h1 : (p : R) ≤ v) (h2 : v < p + 1)
    (hb : p ≤ 2147483647) : toInt v = .ok (p : Int) := by
  have h0 : 0 ≤ v := le_trans (Nat.cast_nonneg p) h1
  have h := LawfulRound.trunc_nonneg v h0
  have e : CMath.trunc v = (p : Int) := by
    have a : ((CMath.trunc v : Int) : R) < ((p + 1 : Int) : R) := by push_cast; linarith [h.1]
    have b : ((p : Int) : R) < ((CMath.trunc v + 1 : Int) : R) := by push_cast; linarith [h.2]
    have := Int.cast_lt.1 a
    have := Int.cast_lt.1 b
    omega
  unfold toInt
  rw [e, i32_ok _ (by omega) (by omega)]

theorem toInt_succ [LawfulTrunc R] [LawfulRound R] {v : R} {p : Nat} (hc : toInt v = .ok (p : Int)) (hp : 1 ≤ p)
    (hb : p < 2147483647) : toInt (v + ((1 : Int) : R)) = .ok ((p + 1 : Nat) : Int) := by
  have h := toInt_within hc hp
  exact toInt_of_within (by push_cast; linarith) (by push_cast; linarith) (by omega)

theorem toInt_negSucc [LawfulTrunc R] [LawfulRound R] {v : R} {p : Nat} (hc : toInt v = .ok (p : Int)) (hp : 1 ≤ p) :
    toInt (-v + ((1 : Int) : R)) = .ok (1 - (p : Int)) := by
  have h := toInt_within hc hp
  have hr := toInt_range hc
  have h1 : (1 : R) ≤ (p : R) := by exact_mod_cast hp
  have e : CMath.trunc (-v + ((1 : Int) : R)) = 1 - (p : Int) := by
    by_cases hz : -v + ((1 : Int) : R) < 0
    · have t := LawfulRound.trunc_neg _ hz
      push_cast at t ⊢
      have a : ((CMath.trunc (-v + 1) : Int) : R) < ((1 - (p : Int) + 1 : Int) : R) := by push_cast; linarith [t.1]
      have b : ((1 - (p : Int) - 1 : Int) : R) < ((CMath.trunc (-v + 1) : Int) : R) := by push_cast; linarith [t.2]
      have := Int.cast_lt.1 a
      have := Int.cast_lt.1 b
      omega
    · have hv : v = 1 := by push_cast at hz; linarith
      have hp1 : p = 1 := by
        have : (p : R) ≤ ((1 : Nat) : R) := by push_cast; linarith [h.1]
        have := Nat.cast_le.1 this
        omega
      subst hp1
      rw [hv, show -(1 : R) + ((1 : Int) : R) = ((0 : Int) : R) by push_cast; ring, LawfulTrunc.trunc_intCast]
      rfl
  unfold toInt
  rw [e, i32_ok _ (by omega) (by omega)]

theorem cmpInt_of [LawfulTrunc R] [LawfulRound R] {v : R} {p : Nat} (hc : toInt v = .ok (p : Int)) (hp : 1 ≤ p) :
    CmpInt v p := by
  have h := toInt_within hc hp
  intro k _
  have l : ((k : Int) : R) ≤ v ↔ k ≤ p := by
    constructor
    · intro a
      by_contra hn
      have : ((p + 1 : Nat) : R) ≤ (k : R) := Nat.cast_le.2 (by omega)
      push_cast at this a
      linarith [h.2]
    · intro a
      have : (k : R) ≤ (p : R) := Nat.cast_le.2 a
      push_cast
      linarith [h.1]
  exact ⟨l, by rw [← not_le, l, not_le]⟩

/-! ### rmi -/

theorem rmiUp_eq (p : Nat) (x : Nat → R) : rmiUp p x = gainOver p x := funext fun k => by simp [rmiUp, gainOver, cMax_eq]
theorem rmiDown_eq (p : Nat) (x : Nat → R) : rmiDown p x = lossOver p x := funext fun k => by simp [rmiDown, lossOver, cMax_eq]
theorem rmiUpS_eq (p : Nat) (x : Nat → R) : rmiUpS p x = gainOver p x := funext fun k => by simp [rmiUpS, gainOver, stdMax_eq]
theorem rmiDownS_eq (p : Nat) (x : Nat → R) : rmiDownS p x = lossOver p x :=
  funext fun k => by simp [rmiDownS, lossOver, stdMax_eq]
theorem rmiOut_eq (g l : R) : rmiOut g l = if g = 0 then 0 else 100 * (g / (g + l)) := by
  unfold rmiOut
  by_cases h : g = 0
  · simp [h]
  · simp [h, mul_comm]

/-- rmi is the relative momentum index, for integer lookback periods. -/
theorem rmi_value_partial [LawfulTrunc R] [LawfulRound R] (o : Nat → R) (p : Nat) (h0 : 1 ≤ o 0) (ho : o 1 = (p : R)) (hp : 1 ≤ p)
    (hb : p ≤ 2147483647) : Computes rmiBatch o p (relMomentum (o 0) p) := by
  have ho' : o 1 = ((p : Int) : R) := by rw [ho]; simp
  have hc : toInt (o 1) = .ok (p : Int) := by rw [ho']; exact toInt_cast _ (by omega)
  have h1 : (1 : R) ≤ o 1 := by rw [ho]; exact_mod_cast hp
  refine (rmi_run o p (not_lt_one' h0) (not_lt_one' h1) hc (rmi_cmp _ p ho' hb)).congr fun x j => ?_
  rw [rmiVal, rmiOut_eq, tsiRec_eq, tsiRec_eq, rmiUp_eq, rmiDown_eq]
  rfl

/-- The stream of rmi, for every lookback period: fractional ones are truncated. -/
theorem rmi_stream_value [LawfulTrunc R] [LawfulRound R] (o : Nat → R) (p : Nat) (h0 : 1 ≤ o 0) (hc : toInt (o 1) = .ok (p : Int))
    (hp : 1 ≤ p) (hb : p < 2147483647) : (rmi (R := R)).StreamComputes o p (relMomentum (o 0) p) := by
  have h1 : (1 : R) ≤ o 1 := le_trans (by exact_mod_cast hp) (toInt_within hc hp).1
  refine StreamComputes.congr (rmi_stream_run o p (not_lt_one' h0) (not_lt_one' h1) hc (toInt_succ hc hp hb)) fun x j => ?_
  rw [rmiValS, rmiOut_eq, rmiRecS_eq, rmiRecS_eq, rmiUpS_eq, rmiDownS_eq]
  rfl

/-- Streams and batch of rmi agree on integer lookback periods. -/
theorem rmi_stream_eq_batch_partial [LawfulTrunc R] [LawfulRound R] (o : Nat → R) (p : Nat) (h0 : 1 ≤ o 0) (ho : o 1 = (p : R))
    (hp : 1 ≤ p) (hb : p < 2147483647) : (rmi (R := R)).StreamEqBatch o p :=
  have : Inhabited R := ⟨0⟩
  streamEqBatch_of (rmi_value_partial o p h0 ho hp (by omega)) (rmi_stream_value o p h0
    (by rw [ho]; exact_mod_cast toInt_cast (R := R) p (by omega)) hp hb)

/-- With a fractional lookback period rmi writes nothing on an input of `start + 1` bars, and a stream writes one value. -/
theorem rmi_violates [LawfulTrunc R] [LawfulRound R] (o : Nat → R) (p : Nat) (h0 : 1 ≤ o 0) (hc : toInt (o 1) = .ok (p : Int))
    (hp : 1 ≤ p) (hb : p < 2147483647) (hf : (p : R) < o 1) (x : Nat → R) :
    rmiStart o = .ok (p : Int) ∧ rmiBatch o (pre x (p + 1)) = .ok (.okay, []) ∧
    ∃ v, (rmi (R := R)).session o [pre x (p + 1)] = .ok (.okay, 1, [v]) := by
  refine ⟨hc, ?_, relMomentum (o 0) p x 0, ?_⟩
  · have h1 : (1 : R) ≤ o 1 := le_trans (by exact_mod_cast hp) hf.le
    unfold rmiBatch
    simp only [if_neg (not_lt_one' h0), if_neg (not_lt_one' h1), length_pre, pure_eq]
    rw [if_pos (by push_cast; linarith)]
  · have := rmi_stream_value o p h0 hc hp hb x (p + 1) [pre x (p + 1)] (by simp)
    rw [this, show p + 1 - p = 1 by omega]
    push_cast
    rw [show (p : Int) + 1 - p = 1 by omega]
    rfl

theorem relMomentum_range {period : R} (h : 1 ≤ period) (p : Nat) (x : Nat → R) (j : Nat) :
    0 ≤ relMomentum period p x j ∧ relMomentum period p x j ≤ 100 := by
  unfold relMomentum
  split
  · constructor <;> norm_num
  rename_i hne
  have hg := ema_nonneg (coef_bounds' h).1 (coef_bounds' h).2 (gainOver p x) j fun k _ => le_max_left _ _
  have hl := ema_nonneg (coef_bounds' h).1 (coef_bounds' h).2 (lossOver p x) j fun k _ => le_max_left _ _
  have hpos := lt_of_le_of_ne hg (Ne.symm hne)
  have q : ema (2 / (1 + period)) (gainOver p x) j /
    (ema (2 / (1 + period)) (gainOver p x) j + ema (2 / (1 + period)) (lossOver p x) j) ≤ 1 :=
    (div_le_one (by linarith)).2 (by linarith)
  have q0 := div_nonneg hg (show 0 ≤ ema (2 / (1 + period)) (gainOver p x) j + ema (2 / (1 + period)) (lossOver p x) j by linarith)
  constructor <;> linarith

/-- rmi lies between 0 and 100. -/
theorem rmi_range_partial [LawfulTrunc R] [LawfulRound R] (o : Nat → R) (p : Nat) (h0 : 1 ≤ o 0) (ho : o 1 = (p : R)) (hp : 1 ≤ p)
    (hb : p ≤ 2147483647) : ∃ y : (Nat → R) → Nat → R, Computes rmiBatch o p y ∧ ∀ x n, 0 ≤ y x n ∧ y x n ≤ 100 :=
  ⟨_, rmi_value_partial o p h0 ho hp hb, fun x n => relMomentum_range h0 p x n⟩

/-- The reference of rmi agrees with the batch call on integer periods (where there are no gains, 0 / 0 is 0 only in the
model's exact numbers, so this is stated for inputs with gains or losses at the first output and so at every one). -/
theorem rmi_ref_eq_batch_partial [LawfulTrunc R] [LawfulRound R] (o : Nat → R) (p q : Nat) (h0 : o 0 = (q : R)) (ho : o 1 = (p : R))
    (hp : 1 ≤ p) (hq : 1 ≤ q) (hb : p ≤ 2147483647) (hb' : q ≤ 2147483647) (x : Nat → R)
    (hne : ∀ j, ema (2 / (1 + (q : R))) (gainOver p x) j ≠ 0) (N : Nat) : rmiRef o (pre x N) = rmiBatch o (pre x N) := by
  have c0 : toInt (o 0) = .ok (q : Int) := by rw [h0]; exact_mod_cast toInt_cast (R := R) q (by omega)
  have c1 : toInt (o 1) = .ok (p : Int) := by rw [ho]; exact_mod_cast toInt_cast (R := R) p (by omega)
  have l0 : (1 : R) ≤ o 0 := by rw [h0]; exact_mod_cast hq
  have l1 : (1 : R) ≤ o 1 := by rw [ho]; exact_mod_cast hp
  rw [rmiRef_run o p q (not_lt_one' l0) (not_lt_one' l1) c1 c0 hq x N, rmi_value_partial o p l0 ho hp hb x N]
  congr 3
  funext j
  dsimp only
  have e : emaCoef (R := R) q = 2 / (1 + (q : R)) := by rw [emaCoef, add_comm]
  have := hne j
  rw [relMomentum, h0, if_neg (hne j), emaRec_eq, emaRec_eq, emaPer_eq, e, rmiUp_eq, rmiDown_eq]
  push_cast
  ring

/-! ### vwap -/

theorem vwapNum_eq (x : Nat → HLCV R) : (fun k => vwapNum (x k)) = fun k => typical x k * (x k).volume :=
  funext fun k => by simp [vwapNum, typical]
theorem vwapOut_eq (a b : R) : vwapOut a b = if a = 0 then 0 else a / b := by simp [vwapOut]

theorem vwap_contract [LawfulTrunc R] [LawfulRound R] (o : Nat → R) (p : Nat) (hc : toInt (o 0) = .ok (p : Int)) (hp : 1 ≤ p) :
    Contract vwapStart vwapBatch o (p - 1) :=
  (vwap_run o p (not_lt_one' (le_trans (by exact_mod_cast hp) (toInt_within hc hp).1)) hc hp (toInt_negSucc hc hp)).contract
    (vwapStart_ok hc hp)

/-- vwap is the volume-weighted mean of the typical price. -/
theorem vwap_value [LawfulTrunc R] [LawfulRound R] (o : Nat → R) (p : Nat) (hc : toInt (o 0) = .ok (p : Int)) (hp : 1 ≤ p) :
    Computes vwapBatch o (p - 1) (volumeMean p) :=
  (vwap_run o p (not_lt_one' (le_trans (by exact_mod_cast hp) (toInt_within hc hp).1)) hc hp (toInt_negSucc hc hp)).congr
    fun x j => by rw [vwapVal, vwapOut_eq, slideD_eq, slideD_eq, slide_eq, slide_eq, vwapNum_eq]; rfl
theorem vwap_stream_value [LawfulTrunc R] [LawfulRound R] (o : Nat → R) (p : Nat) (hc : toInt (o 0) = .ok (p : Int)) (hp : 1 ≤ p)
    (hb : p < 2147483647) : (vwap (R := R)).StreamComputes o (p - 1) (volumeMean p) :=
  StreamComputes.congr
    (vwap_stream_run o p (not_lt_one' (le_trans (by exact_mod_cast hp) (toInt_within hc hp).1)) hc hp (toInt_succ hc hp hb))
    fun x j => by
      have e1 := slideS_eq (fun k => vwapNum (x k)) p j hp
      have e2 := slideS_eq (fun k => (x k).volume) p j hp
      rw [vwapValS, vwapOut_eq, e1, e2, vwapNum_eq]; rfl
theorem vwap_stream_eq_batch_partial [LawfulTrunc R] [LawfulRound R] (o : Nat → R) (p : Nat) (hc : toInt (o 0) = .ok (p : Int))
    (hp : 1 ≤ p) (hb : p < 2147483647) : (vwap (R := R)).StreamEqBatch o (p - 1) :=
  have : Inhabited (HLCV R) := ⟨⟨0, 0, 0, 0⟩⟩
  streamEqBatch_of (vwap_value o p hc hp) (vwap_stream_value o p hc hp hb)

/-- vwap lies between the smallest and the largest typical price of its window, for nonnegative volumes that are not all
zero in it. -/
theorem vwap_bounds [LawfulTrunc R] [LawfulRound R] (o : Nat → R) (p : Nat) (hc : toInt (o 0) = .ok (p : Int)) (hp : 1 ≤ p) :
    ∃ y : (Nat → HLCV R) → Nat → R, Computes vwapBatch o (p - 1) y ∧
      ∀ x j (lo hi : R), (∀ k, j ≤ k → k < j + p → 0 ≤ (x k).volume) → (∃ k, j ≤ k ∧ k < j + p ∧ 0 < (x k).volume) →
        (∀ k, j ≤ k → k < j + p → lo ≤ typical x k ∧ typical x k ≤ hi) → lo ≤ y x j ∧ y x j ≤ hi := by
  refine ⟨_, vwap_value o p hc hp, fun x j lo hi hv hpos h => ?_⟩
  have hs : 0 < ∑ k ∈ range p, (x (j + k)).volume := by
    obtain ⟨k, h1, h2, h3⟩ := hpos
    refine sum_pos' (fun i hi => hv _ (by omega) (by have := mem_range.1 hi; omega)) ⟨k - j, mem_range.2 (by omega), ?_⟩
    rwa [show j + (k - j) = k by omega]
  have b := wmean_bounds (n := p) (fun k => (x (j + k)).volume) (fun k => typical x (j + k)) lo hi
    (fun k hk => hv _ (by omega) (by omega)) hs fun k hk => h _ (by omega) (by omega)
  have e : ∑ k ∈ range p, (x (j + k)).volume * typical x (j + k) = winSum p (fun k => typical x k * (x k).volume) j :=
    sum_congr rfl fun k _ => mul_comm _ _
  rw [e] at b
  change lo ≤ _ / winSum p (fun k => (x k).volume) j ∧ _ / winSum p (fun k => (x k).volume) j ≤ hi at b
  unfold volumeMean
  split
  · rename_i hz; rw [hz, zero_div] at b; exact b
  · exact b

/-! ### evwma -/

/-- evwma is the elastic volume-weighted average. -/
theorem evwma_value (o : Nat → R) (p : Nat) (hc : toInt (o 0) = .ok (p : Int)) (hp : 1 ≤ p) (hg : 0 < o 1) :
    Computes evwmaBatch o (p - 1) (elasticMean p (o 1)) :=
  (evwma_run o p hc hp (by simpa using hg)).congr fun x j => by
    induction j with
    | zero => rfl
    | succ j ih =>
      rw [evwmaRec, ih, evwmaNext, slideD_eq, slide_eq, elasticMean]
      simp only [beq_iff_eq, Int.cast_zero, Int.cast_one]
      split
      · rfl
      · ring
theorem evwma_stream_value (o : Nat → R) (p : Nat) (hc : toInt (o 0) = .ok (p : Int)) (hp : 1 ≤ p) (hb : p < 2147483647)
    (hg : 0 < o 1) : (evwma (R := R)).StreamComputes o (p - 1) (elasticMean p (o 1)) := by
  have : Inhabited (CV R) := ⟨⟨0, 0⟩⟩
  intro x N chunks hx
  obtain ⟨out, ho, hs⟩ := evwma_stream_eq_batch_partial o p hc hp hb (by simpa using hg) chunks
  rw [hx] at ho
  cases ho.symm.trans (evwma_value o p hc hp hg x N)
  rw [hs, hx, length_pre]

/-- With positive volumes and `gamma` at least 1, evwma stays within the closes seen so far. -/
theorem evwma_bounds (o : Nat → R) (p : Nat) (hc : toInt (o 0) = .ok (p : Int)) (hp : 1 ≤ p) (hg : 1 ≤ o 1) :
    ∃ y : (Nat → CV R) → Nat → R, Computes evwmaBatch o (p - 1) y ∧
      ∀ x (lo hi : R) j, (∀ k, k < j + p → 0 < (x k).volume) → (∀ k, k < j + p → lo ≤ (x k).close ∧ (x k).close ≤ hi) →
        lo ≤ y x j ∧ y x j ≤ hi := by
  refine ⟨_, evwma_value o p hc hp (by linarith), fun x lo hi j hv h => ?_⟩
  induction j with
  | zero => exact h (p - 1) (by omega)
  | succ j ih =>
    have hprev := ih (fun k hk => hv k (by omega)) fun k hk => h k (by omega)
    have hlast := hv (j + p) (by omega)
    have hle : (x (j + p)).volume ≤ winSum p (fun k => (x k).volume) (j + 1) := by
      unfold winSum
      rw [show (x (j + p)).volume = (fun k => (x (j + 1 + k)).volume) (p - 1) by
        simp only [show j + 1 + (p - 1) = j + p by omega]]
      exact single_le_sum (f := fun k => (x (j + 1 + k)).volume)
        (fun k hk => (hv _ (by have := mem_range.1 hk; omega)).le) (mem_range.2 (by omega))
    have hpos : 0 < winSum p (fun k => (x k).volume) (j + 1) := lt_of_lt_of_le hlast hle
    rw [elasticMean]
    simp only [if_neg hpos.ne']
    have hden : 0 < o 1 * winSum p (fun k => (x k).volume) (j + 1) := mul_pos (by linarith) hpos
    refine convex_bounds (div_nonneg hlast.le hden.le) ((div_le_one hden).2 ?_) hprev (h _ (by omega))
    nlinarith

/-! ### vi -/

theorem viTermAt_eq [LawfulAbs R] (x : Nat → HLC R) (k : Nat) :
    viTermAt x k = ⟨vortexUp x k, vortexDown x k, Spec.trueRange x (k + 1)⟩ := by
  simp [viTermAt, viTerm, stdMax_eq, LawfulAbs.fabs_eq, vortexUp, vortexDown, Spec.trueRange]

theorem viSum_eq [LawfulAbs R] (p : Nat) (x : Nat → HLC R) (j : Nat) : viSum p x (j + p) =
    ⟨winSum p (vortexUp x) j, winSum p (vortexDown x) j, winSum p (fun k => Spec.trueRange x (k + 1)) j⟩ := by
  have e : ∀ n, viSum p x n = ⟨slide (vortexUp x) p n, slide (vortexDown x) p n, slide (fun k => Spec.trueRange x (k + 1)) p n⟩ := by
    intro n
    induction n with
    | zero => simp [viSum, slide]
    | succ n ih =>
      rw [viSum, ih, viTermAt_eq, viTermAt_eq]
      simp only [slide, ViT.add, ViT.sub]
      split
      · rfl
      · congr 1 <;> ring
  rw [e, slide_eq, slide_eq, slide_eq]

theorem viVal_eq [LawfulAbs R] (p : Nat) (x : Nat → HLC R) :
    viVal p x = fun j => ⟨vortex p (vortexUp x) x j, vortex p (vortexDown x) x j⟩ := by
  funext j
  rw [viVal, viSum_eq]
  simp [viOut, vortex]

/-- vi is the vortex indicator, on inputs of more than `period` bars (see `vi_short_violates` for the others). -/
theorem vi_value_partial [LawfulAbs R] (o : Nat → R) (p : Nat) (hc : toInt (o 0) = .ok (p : Int)) (hp : 1 ≤ p) (x : Nat → HLC R)
    (N : Nat) (hN : p < N) : viBatch o (pre x N) =
      .ok (.okay, pre (fun j => ⟨vortex p (vortexUp x) x j, vortex p (vortexDown x) x j⟩) (N - p)) := by
  rw [vi_run o p hc hp x N hN, viVal_eq]
/-- The stream of vi computes the vortex indicator on every input. -/
theorem vi_stream_value [LawfulAbs R] [LawfulTrunc R] [LawfulRound R] (o : Nat → R) (p : Nat) (hc : toInt (o 0) = .ok (p : Int)) (hp : 1 ≤ p) :
    (vi (R := R)).StreamComputes o p (fun x j => ⟨vortex p (vortexUp x) x j, vortex p (vortexDown x) x j⟩) :=
  StreamComputes.congr (vi_stream_run o p hc hp (not_lt_one' (le_trans (by exact_mod_cast hp) (toInt_within hc hp).1)) (cmpInt_of hc hp))
    fun x j => congrFun (viVal_eq p x) j
theorem vi_nonneg_partial [LawfulAbs R] (o : Nat → R) (p : Nat) (hc : toInt (o 0) = .ok (p : Int)) (hp : 1 ≤ p) (x : Nat → HLC R)
    (N : Nat) (hN : p < N) : ∃ y : Nat → ViOut R, viBatch o (pre x N) = .ok (.okay, pre y (N - p)) ∧
      ∀ j, 0 ≤ (y j).plus ∧ 0 ≤ (y j).minus := by
  refine ⟨_, vi_value_partial o p hc hp x N hN, fun j => ?_⟩
  have ht : 0 ≤ winSum p (fun k => Spec.trueRange x (k + 1)) j := sum_nonneg fun k _ => by
    simp only [Spec.trueRange, Nat.add_eq_zero_iff, one_ne_zero, and_false, if_false]
    exact le_trans (abs_nonneg _) (le_trans (le_max_left _ _) (le_max_right _ _))
  have key : ∀ v : Nat → R, (∀ k, 0 ≤ v k) → 0 ≤ vortex p v x j := by
    intro v hv
    unfold vortex
    split
    · exact le_rfl
    · exact div_nonneg (sum_nonneg fun k _ => hv _) ht
  exact ⟨key _ fun k => abs_nonneg _, key _ fun k => abs_nonneg _⟩
/-- The reference of vi agrees with the batch call where no window is without movement. -/
theorem vi_ref_eq_batch_partial [LawfulAbs R] (o : Nat → R) (p : Nat) (hc : toInt (o 0) = .ok (p : Int)) (hp : 1 ≤ p)
    (x : Nat → HLC R) (N : Nat) (h : ∀ j, winSum p (vortexUp x) j ≠ 0 ∧ winSum p (vortexDown x) j ≠ 0) :
    viRef o (pre x N) = viBatch o (pre x N) :=
  viRef_eq_batch o p hc hp x N fun j => by rw [viSum_eq]; simp [h j]

/-- A stream of kc accepts periods between 0 and 1, which the batch call refuses. -/
theorem kc_stream_violates (o : Nat → R) (h0 : 0 ≤ o 0) (h1 : o 0 < 1) (h2 : 0 ≤ o 1) :
    Refuses kcBatch o ∧ ¬ (kc (R := R)).NewRefuses o := by
  refine ⟨kc_refuses o (Or.inl (by simpa using h1)), ?_⟩
  simp [Indicator.NewRefuses, kc, kcNew, not_lt_zero' h0, not_lt_zero' h2, kcStart, h0, h2]

end Exact

/-! ### Concrete cases -/

section Examples

def cvs : List (CV ℚ) := [⟨10, 2⟩, ⟨12, 3⟩, ⟨11, 0⟩, ⟨14, 1⟩]
def hlcs : List (HLC ℚ) := [⟨10, 8, 9⟩, ⟨12, 9, 11⟩, ⟨11, 7, 8⟩, ⟨9, 8, 9⟩, ⟨13, 9, 12⟩]
def hlcvs : List (HLCV ℚ) := [⟨10, 8, 9, 2⟩, ⟨12, 9, 12, 1⟩, ⟨11, 7, 9, 3⟩, ⟨9, 6, 9, 0⟩]

example : fiBatch (opts [3]) cvs = .ok (.okay, [6, 3, 3]) := by decide +kernel
example : (fi (R := ℚ)).session (opts [3]) [cvs.take 1, [], cvs.drop 1] = .ok (.okay, 3, [6, 3, 3]) := by decide +kernel
example : mgdynBatch (opts [2]) ([4, 4, 4] : List ℚ) = .ok (.okay, [4, 4, 4]) := mgdyn_constant _ 4 3
/-- pvt: at a bar without volume, and at the next one, the batch call falls back to 0; the stream carries on. -/
theorem pvt_stream_violates : ∃ xs : List (CV ℚ), ∃ a b,
    pvtBatch (opts []) xs = .ok (.okay, a) ∧ (pvt (R := ℚ)).session (opts []) [xs] = .ok (.okay, (xs.length : Int) - 1, b) ∧ a ≠ b :=
  ⟨cvs, [13 / 5, 0, 0], [13 / 5, 13 / 5, 158 / 55], by decide +kernel, by decide +kernel, by decide +kernel⟩
example : pvtBatch (opts []) (cvs.take 2) = .ok (.okay, [2 + 3 * (1 / 5)]) := by decide +kernel
example : kcBatch (opts [3, 2]) (hlcs.take 2) = .ok (.okay, [⟨5, 9, 13⟩, ⟨5, 10, 15⟩]) := by decide +kernel
example : (kc (R := ℚ)).session (opts [3, 2]) [hlcs.take 1, (hlcs.take 2).drop 1] = .ok (.okay, 2, [⟨5, 9, 13⟩, ⟨5, 10, 15⟩]) := by
  decide +kernel
example : Refuses kcBatch (opts [(1 / 2 : ℚ), 2]) ∧ ¬ (kc (R := ℚ)).NewRefuses (opts [1 / 2, 2]) :=
  kc_stream_violates _ (by decide +kernel) (by decide +kernel) (by decide +kernel)
example : tsiBatch (opts [3, 1]) ([1, 5, 3, 9] : List ℚ) = .ok (.okay, [100, 100 / 3, 700 / 9]) := by decide +kernel
example : (tsi (R := ℚ)).session (opts [3, 1]) [[1, 5], [3], [9]] = .ok (.okay, 3, [100, 100 / 3, 700 / 9]) := by decide +kernel
example : tsiRef (opts [3, 1]) ([1, 5, 3, 9] : List ℚ) = .ok (.okay, [100, 100 / 3, 700 / 9]) := by decide +kernel
example : rmiBatch (opts [3, 2]) ([1, 5, 3, 1] : List ℚ) = .ok (.okay, [100, 100 / 3]) := by decide +kernel
example : (rmi (R := ℚ)).session (opts [3, 2]) [[1, 5, 3], [1]] = .ok (.okay, 2, [100, 100 / 3]) := by decide +kernel
/-- The fractional lookback of `rmi_violates`. -/
example : rmiBatch (opts [3, 5 / 2]) ([1, 5, 3] : List ℚ) = .ok (.okay, []) ∧
    (rmi (R := ℚ)).session (opts [3, 5 / 2]) [[1, 5, 3]] = .ok (.okay, 1, [100]) := by
  constructor <;> decide +kernel
example : rmiRef (opts [3, 2]) ([1, 5, 3, 1] : List ℚ) = .ok (.okay, [100, 100 / 3]) := by decide +kernel
example : vwapBatch (opts [2]) hlcvs = .ok (.okay, [29 / 3, 19 / 2, 9]) := by decide +kernel
example : (vwap (R := ℚ)).session (opts [2]) [hlcvs.take 3, hlcvs.drop 3] = .ok (.okay, 3, [29 / 3, 19 / 2, 9]) := by decide +kernel
/-- The reference of vwap writes a value even when there are fewer bars than the period, past an output of size 0. -/
theorem vwap_ref_violates : vwapRef (opts [5]) hlcvs = .error .oobWrite := by decide +kernel
example : vwapRef (opts [2]) hlcvs = .ok (.okay, [29 / 3, 19 / 2, 9]) := by decide +kernel
example : evwmaBatch (opts [2, 1]) cvs = .ok (.okay, [12, 12, 14]) := by decide +kernel
example : (evwma (R := ℚ)).session (opts [2, 1]) [cvs.take 3, cvs.drop 3] = .ok (.okay, 3, [12, 12, 14]) := by decide +kernel
/-- The reference of evwma accumulates volumes in an `int`, so fractions of volumes are lost. -/
theorem evwma_ref_ne_batch : ∃ xs : List (CV ℚ), ∃ a b, evwmaBatch (opts [2, 1]) xs = .ok (.okay, a) ∧
    evwmaRef (opts [2, 1]) xs = .ok (.okay, b) ∧ a ≠ b :=
  ⟨[⟨10, 1⟩, ⟨12, 3 / 2⟩, ⟨11, 1⟩], [12, 58 / 5], [12, 23 / 2], by decide +kernel, by decide +kernel, by decide +kernel⟩
example : viBatch (opts [2]) hlcs = .ok (.okay, [⟨6 / 7, 6 / 7⟩, ⟨4 / 5, 8 / 5⟩, ⟨7 / 5, 3 / 5⟩]) := by decide +kernel
example : (vi (R := ℚ)).session (opts [2]) [hlcs.take 2, hlcs.drop 2] =
    .ok (.okay, 3, [⟨6 / 7, 6 / 7⟩, ⟨4 / 5, 8 / 5⟩, ⟨7 / 5, 3 / 5⟩]) := by decide +kernel
example : viBatch (opts [2]) (hlcs.take 2) = .ok (.invalidOption, []) := by decide +kernel
example : toInt (5 / 2 : ℚ) = .ok (2 : Int) ∧ ((2 : Nat) : ℚ) < 5 / 2 := by decide +kernel

end Examples
end Verif
