/-
C39, C44 and the C03, C05-C07, C35 rows of the recursive filters gf1..gf4, bf2, bf3, ssmooth, roof, lf and rema.
-/
import Verif.Proof.FiltersField
import Verif.Core.RatInst
import Verif.Core.RealInst

namespace Verif
open Spec
set_option linter.unusedSectionVars false
set_option linter.unusedSimpArgs false

section Any
variable {R : Type} [Num R]

/-! ### Any arithmetic

`q` is half the period: the accepted periods are the even ones from 2 to 40. -/

theorem gf1_contract (o : Nat → R) (q : Nat) (h1 : 1 ≤ q) (h2 : q ≤ 20) (hc : toInt (o 0) = .ok ((2 * q : Nat) : Int)) :
    Contract gf1Start gf1Batch o 0 := (gf1_run o q h1 h2 hc).contract (by simp [gf1Start, hc])
theorem gf2_contract (o : Nat → R) (q : Nat) (h1 : 1 ≤ q) (h2 : q ≤ 20) (hc : toInt (o 0) = .ok ((2 * q : Nat) : Int)) :
    Contract gf2Start gf2Batch o 0 := (gf2_run o q h1 h2 hc).contract (by simp [gf2Start, hc])
theorem gf3_contract (o : Nat → R) (q : Nat) (h1 : 1 ≤ q) (h2 : q ≤ 20) (hc : toInt (o 0) = .ok ((2 * q : Nat) : Int)) :
    Contract gf3Start gf3Batch o 0 := (gf3_run o q h1 h2 hc).contract (by simp [gf3Start, hc])
theorem bf2_contract (o : Nat → R) (h : ¬ o 0 < c! 1) (q : Nat) (h1 : 1 ≤ q) (h2 : q ≤ 20)
    (hc : toInt (o 0) = .ok ((2 * q : Nat) : Int)) (s : Nat) (hs : bf2Start o = .ok (s : Int)) :
    Contract bf2Start bf2Batch o s := (bf2_run o h q h1 h2 hc s hs).contract hs
theorem bf3_contract (o : Nat → R) (h : ¬ o 0 < c! 1) (q : Nat) (h1 : 1 ≤ q) (h2 : q ≤ 20)
    (hc : toInt (o 0) = .ok ((2 * q : Nat) : Int)) (s : Nat) (hs : bf3Start o = .ok (s : Int)) :
    Contract bf3Start bf3Batch o s := (bf3_run o h q h1 h2 hc s hs).contract hs
theorem ssmooth_contract (o : Nat → R) : Contract ssmoothStart ssmoothBatch o 0 := (ssmooth_run o).contract rfl
theorem roof_contract (o : Nat → R) : Contract roofStart roofBatch o 0 := (roof_run o).contract rfl
theorem lf_contract (o : Nat → R) (h : ¬ o 0 < c! 0) : Contract lfStart lfBatch o 0 := (lf_run o h).contract rfl
theorem rema_contract (o : Nat → R) (h1 : ¬ o 0 < c! 1) (h2 : ¬ o 1 < c! 0) : Contract remaStart remaBatch o 0 :=
  (rema_run o (by unfold remaBad; exact fun h => h.elim h1 h2)).contract rfl

/-- gf4 reads its first five bars without looking at the size: with fewer it reads past the end of the input. -/
theorem gf4_short_violates (o : Nat → R) (q : Nat) (h1 : 1 ≤ q) (h2 : q ≤ 20) (hc : toInt (o 0) = .ok ((2 * q : Nat) : Int))
    (xs : List R) (hN : xs.length < 5) : gf4Batch o xs = .error .oobRead := by
  have : Inhabited R := ⟨c! 0⟩
  obtain ⟨x, hx⟩ := exists_pre xs
  generalize hM : xs.length = N at *
  subst hx
  unfold gf4Batch gf4Start
  rw [hc, bind_ok, if_neg (gf_good q h1 h2), show Ring.make 5 = .ok (Ring.after (gf4Y q x) 5 0) from Ring.make_after _ 5 (by omega),
    bind_ok, gf4_coef q h1 h2, bind_ok]
  simp only [bind_ok, pure_eq, length_pre, hc]
  refine forUp_err_bind (e := .oobRead) 0 N (fun n => (Ring.after (gf4Y q x) 5 n, pre (gf4Y q x) n)) rfl rfl (by omega) (by omega) ?_ ?_
  · intro n ha hb
    rw [rd_pre_nat _ _ _ (by omega), bind_ok, gf4_copy q x n (by omega), bind_ok, wr_pre _ _ _ _ (by omega) (by rfl), bind_ok]
  · have e : rd (pre x N) ((N : Nat) : Int) = .error .oobRead := rd_oob _ _ (by simp)
    rw [e]; rfl

/-- gf4 on five or more bars: one value per bar, and values are never revised.  Partial: shorter inputs are read out
of bounds (`gf4_short_violates`). -/
theorem gf4_contract_partial (o : Nat → R) (q : Nat) (h1 : 1 ≤ q) (h2 : q ≤ 20) (hc : toInt (o 0) = .ok ((2 * q : Nat) : Int)) :
    gf4Start o = .ok 0 ∧
    (∀ xs : List R, 5 ≤ xs.length → ∃ out, gf4Batch o xs = .ok (.okay, out) ∧ out.length = xs.length) ∧
    Causal gf4Batch o := by
  have : Inhabited R := ⟨c! 0⟩
  refine ⟨by simp [gf4Start, hc], fun xs hN => ?_, fun xs ys out h => ?_⟩
  · obtain ⟨x, hx⟩ := exists_pre xs
    refine ⟨_, by rw [hx]; exact gf4_run o q h1 h2 hc x _ hN, by simp⟩
  · have hN : 5 ≤ xs.length := by
      by_contra hN
      rw [gf4_short_violates o q h1 h2 hc xs (by omega)] at h; cases h
    obtain ⟨x, hx⟩ := exists_pre (xs ++ ys)
    have h3 : xs = pre x xs.length := by
      have := congrArg (List.take xs.length) hx
      rw [List.take_left] at this
      refine this.trans ?_
      simp only [pre, ← List.map_take, List.take_range]
      rw [Nat.min_eq_left (by simp)]
    rw [h3, gf4_run o q h1 h2 hc x _ hN] at h
    cases h
    rw [hx, gf4_run o q h1 h2 hc x _ (by simp; omega)]
    refine ⟨(pre (gf4Y q x) (xs ++ ys).length).drop xs.length, ?_⟩
    congr 2
    conv_lhs => rw [← List.take_append_drop xs.length (pre (gf4Y q x) (xs ++ ys).length)]
    congr 1
    simp [pre, ← List.map_take, List.take_range]

theorem gf1_refuses (o : Nat → R) (p : Int) (hc : toInt (o 0) = .ok p) (hp : p < 1 ∨ p % 2 ≠ 0 ∨ 40 < p) :
    Refuses gf1Batch o ∧ (gf1 (R := R)).NewRefuses o := by
  have h : gfBad p := gfBad_of hp
  exact ⟨fun xs => by simp [gf1Batch, hc, h], by simp [Indicator.NewRefuses, gf1, gf1New, hc, h]⟩
theorem gf2_refuses (o : Nat → R) (p : Int) (hc : toInt (o 0) = .ok p) (hp : p < 1 ∨ p % 2 ≠ 0 ∨ 40 < p) :
    Refuses gf2Batch o ∧ (gf2 (R := R)).NewRefuses o := by
  have h : gfBad p := gfBad_of hp
  exact ⟨fun xs => by simp [gf2Batch, hc, h], by simp [Indicator.NewRefuses, gf2, gf2New, hc, h]⟩
theorem gf3_refuses (o : Nat → R) (p : Int) (hc : toInt (o 0) = .ok p) (hp : p < 1 ∨ p % 2 ≠ 0 ∨ 40 < p) :
    Refuses gf3Batch o ∧ (gf3 (R := R)).NewRefuses o := by
  have h : gfBad p := gfBad_of hp
  exact ⟨fun xs => by simp [gf3Batch, hc, h], by simp [Indicator.NewRefuses, gf3, gf3New, hc, h]⟩
theorem gf4_refuses (o : Nat → R) (p : Int) (hc : toInt (o 0) = .ok p) (hp : p < 1 ∨ p % 2 ≠ 0 ∨ 40 < p) :
    Refuses gf4Batch o ∧ (gf4 (R := R)).NewRefuses o := by
  have h : gfBad p := gfBad_of hp
  exact ⟨fun xs => by simp [gf4Batch, hc, h], by simp [Indicator.NewRefuses, gf4, gf4New, hc, h]⟩
theorem bf2_refuses (o : Nat → R) (h : o 0 < c! 1 ∨ ∃ p, toInt (o 0) = .ok p ∧ 0 ≤ p ∧ (p % 2 ≠ 0 ∨ 40 < p)) :
    Refuses bf2Batch o ∧ (bf2 (R := R)).NewRefuses o := by
  have h := bfBad_of o h
  exact ⟨fun xs => by simp [bf2Batch, h], by simp [Indicator.NewRefuses, bf2, bf2New, h]⟩
theorem bf3_refuses (o : Nat → R) (h : o 0 < c! 1 ∨ ∃ p, toInt (o 0) = .ok p ∧ 0 ≤ p ∧ (p % 2 ≠ 0 ∨ 40 < p)) :
    Refuses bf3Batch o ∧ (bf3 (R := R)).NewRefuses o := by
  have h := bfBad_of o h
  exact ⟨fun xs => by simp [bf3Batch, h], by simp [Indicator.NewRefuses, bf3, bf3New, h]⟩
theorem lf_refuses (o : Nat → R) (h : o 0 < c! 0) : Refuses lfBatch o ∧ (lf (R := R)).NewRefuses o := by
  constructor
  · intro xs; unfold lfBatch; simp only []; rw [if_pos h]; rfl
  · show lfNew o = _; unfold lfNew; simp only []; rw [if_pos h]; rfl
theorem rema_refuses (o : Nat → R) (h : o 0 < c! 1 ∨ o 1 < c! 0) : Refuses remaBatch o ∧ (rema (R := R)).NewRefuses o := by
  constructor
  · intro xs; unfold remaBatch; rw [if_pos (show remaBad o from h)]; rfl
  · show remaNew o = _; unfold remaNew; rw [if_pos (show remaBad o from h)]; rfl

theorem gf1_chunks (o : Nat → R) : (gf1 (R := R)).ChunkInvariant o := chunkInvariant_of (fun _ => single_ordered _) o
theorem gf2_chunks (o : Nat → R) : (gf2 (R := R)).ChunkInvariant o := chunkInvariant_of (fun _ => single_ordered _) o
theorem gf3_chunks (o : Nat → R) : (gf3 (R := R)).ChunkInvariant o := chunkInvariant_of (fun _ => single_ordered _) o
theorem gf4_chunks (o : Nat → R) : (gf4 (R := R)).ChunkInvariant o := chunkInvariant_of gf4Phases_ordered o
theorem bf2_chunks (o : Nat → R) : (bf2 (R := R)).ChunkInvariant o := chunkInvariant_of bf2Phases_ordered o
theorem bf3_chunks (o : Nat → R) : (bf3 (R := R)).ChunkInvariant o := chunkInvariant_of bf3Phases_ordered o
theorem ssmooth_chunks (o : Nat → R) : (ssmooth (R := R)).ChunkInvariant o := chunkInvariant_of (fun _ => single_ordered _) o
theorem roof_chunks (o : Nat → R) : (roof (R := R)).ChunkInvariant o := chunkInvariant_of (fun _ => single_ordered _) o
theorem lf_chunks (o : Nat → R) : (lf (R := R)).ChunkInvariant o := chunkInvariant_of (fun _ => single_ordered _) o
theorem rema_chunks (o : Nat → R) : (rema (R := R)).ChunkInvariant o := by
  apply chunkInvariant_of'
  intro k p s h
  change remaNew o = _ at h
  unfold remaNew at h
  split at h
  · cases h
  · cases h; exact remaPhases_ordered _

/-! Stream and batch agree bit for bit, whatever the arithmetic. -/

theorem gf2_stream_eq_batch (o : Nat → R) (q : Nat) (h1 : 1 ≤ q) (h2 : q ≤ 20) (hc : toInt (o 0) = .ok ((2 * q : Nat) : Int)) :
    (gf2 (R := R)).StreamEqBatch o 0 :=
  have : Inhabited R := ⟨c! 0⟩
  streamEqBatch_of (gf2_run o q h1 h2 hc) (gf2_stream_run o q h1 h2 hc)
theorem gf3_stream_eq_batch (o : Nat → R) (q : Nat) (h1 : 1 ≤ q) (h2 : q ≤ 20) (hc : toInt (o 0) = .ok ((2 * q : Nat) : Int)) :
    (gf3 (R := R)).StreamEqBatch o 0 :=
  have : Inhabited R := ⟨c! 0⟩
  streamEqBatch_of (gf3_run o q h1 h2 hc) (gf3_stream_run o q h1 h2 hc)
/-- Partial: the batch call reads out of bounds on fewer than five bars (`gf4_short_violates`), the stream does not. -/
theorem gf4_stream_eq_batch_partial (o : Nat → R) (q : Nat) (h1 : 1 ≤ q) (h2 : q ≤ 20) (hc : toInt (o 0) = .ok ((2 * q : Nat) : Int))
    (chunks : List (List R)) (h5 : 5 ≤ chunks.flatten.length) : ∃ out, gf4Batch o chunks.flatten = .ok (.okay, out) ∧
      (gf4 (R := R)).session o chunks = .ok (.okay, (chunks.flatten.length : Int), out) := by
  have : Inhabited R := ⟨c! 0⟩
  obtain ⟨x, hx⟩ := exists_pre chunks.flatten
  refine ⟨_, by rw [hx]; exact gf4_run o q h1 h2 hc x _ h5, ?_⟩
  have := gf4_stream_run o q h1 h2 hc x _ chunks hx
  simpa using this
theorem bf2_stream_eq_batch (o : Nat → R) (h : ¬ o 0 < c! 1) (q : Nat) (h1 : 1 ≤ q) (h2 : q ≤ 20)
    (hc : toInt (o 0) = .ok ((2 * q : Nat) : Int)) (s : Nat) (hs : bf2Start o = .ok (s : Int)) : (bf2 (R := R)).StreamEqBatch o s :=
  have : Inhabited R := ⟨c! 0⟩
  streamEqBatch_of (bf2_run o h q h1 h2 hc s hs) (bf2_stream_run o h q h1 h2 hc s hs)
theorem bf3_stream_eq_batch (o : Nat → R) (h : ¬ o 0 < c! 1) (q : Nat) (h1 : 1 ≤ q) (h2 : q ≤ 20)
    (hc : toInt (o 0) = .ok ((2 * q : Nat) : Int)) (s : Nat) (hs : bf3Start o = .ok (s : Int)) : (bf3 (R := R)).StreamEqBatch o s :=
  have : Inhabited R := ⟨c! 0⟩
  streamEqBatch_of (bf3_run o h q h1 h2 hc s hs) (bf3_stream_run o h q h1 h2 hc s hs)
theorem ssmooth_stream_eq_batch (o : Nat → R) : (ssmooth (R := R)).StreamEqBatch o 0 :=
  have : Inhabited R := ⟨c! 0⟩
  streamEqBatch_of (ssmooth_run o) (ssmooth_stream_run o)
theorem roof_stream_eq_batch (o : Nat → R) : (roof (R := R)).StreamEqBatch o 0 :=
  have : Inhabited R := ⟨c! 0⟩
  streamEqBatch_of (roof_run o) (roof_stream_run o)
theorem lf_stream_eq_batch (o : Nat → R) (h : ¬ o 0 < c! 0) : (lf (R := R)).StreamEqBatch o 0 :=
  have : Inhabited R := ⟨c! 0⟩
  streamEqBatch_of (lf_run o h) (lf_stream_run o h)
theorem rema_stream_eq_batch (o : Nat → R) (h1 : ¬ o 0 < c! 1) (h2 : ¬ o 1 < c! 0) : (rema (R := R)).StreamEqBatch o 0 :=
  have : Inhabited R := ⟨c! 0⟩
  streamEqBatch_of (rema_run o fun h => h.elim h1 h2) (rema_stream_run o fun h => h.elim h1 h2)

end Any

section Exact
variable {R : Type} [Field R] [LinearOrder R] [IsStrictOrderedRing R] [CMath R]

/-! ### Exact arithmetic -/

theorem gf1_value (o : Nat → R) (q : Nat) (h1 : 1 ≤ q) (h2 : q ≤ 20) (hc : toInt (o 0) = .ok ((2 * q : Nat) : Int)) :
    Computes gf1Batch o 0 (iir [coef gf1B0 q] [coef gf1A1 q]) := gf1F_eq (R := R) q h1 h2 ▸ gf1_run o q h1 h2 hc
/-- Partial: exact arithmetic only; the stream multiplies by the reciprocal of the sum by which the batch call divides. -/
theorem gf1_stream_eq_batch_partial (o : Nat → R) (q : Nat) (h1 : 1 ≤ q) (h2 : q ≤ 20) (hc : toInt (o 0) = .ok ((2 * q : Nat) : Int)) :
    (gf1 (R := R)).StreamEqBatch o 0 :=
  streamEqBatch_of (gf1_value o q h1 h2 hc) (gf1G_eq (R := R) q h1 h2 ▸ gf1_stream_run o q h1 h2 hc)
theorem gf2_value (o : Nat → R) (q : Nat) (h1 : 1 ≤ q) (h2 : q ≤ 20) (hc : toInt (o 0) = .ok ((2 * q : Nat) : Int)) :
    Computes gf2Batch o 0 (iir [coef gf2B0 q / (coef gf2B0 q + coef gf2A1 q + coef gf2A2 q)]
      [coef gf2A1 q / (coef gf2B0 q + coef gf2A1 q + coef gf2A2 q), coef gf2A2 q / (coef gf2B0 q + coef gf2A1 q + coef gf2A2 q)]) :=
  gf2Y_eq (R := R) q ▸ gf2_run o q h1 h2 hc
/-- gf3 ignores its period: every accepted period gives the same filter, the mean of the new bar and the last three
outputs. -/
theorem gf3_ignores_period (o : Nat → R) (q : Nat) (h1 : 1 ≤ q) (h2 : q ≤ 20) (hc : toInt (o 0) = .ok ((2 * q : Nat) : Int)) :
    Computes gf3Batch o 0 (iir [1/4] [1/4, 1/4, 1/4]) := gf3Y_eq (R := R) q h1 h2 ▸ gf3_run o q h1 h2 hc
theorem bf2_value (o : Nat → R) (h : 1 ≤ o 0) (q : Nat) (h1 : 1 ≤ q) (h2 : q ≤ 20)
    (hc : toInt (o 0) = .ok ((2 * q : Nat) : Int)) (s : Nat) (hs : bf2Start o = .ok (s : Int)) :
    Computes bf2Batch o s (fun x j => iir [coef bf2B0 q, coef bf2B1 q, coef bf2B2 q] [coef bf2A1 q, coef bf2A2 q] x (j + s)) :=
  bf2Y_eq (R := R) q ▸ bf2_run o (by simpa using h) q h1 h2 hc s hs
theorem bf3_value (o : Nat → R) (h : 1 ≤ o 0) (q : Nat) (h1 : 1 ≤ q) (h2 : q ≤ 20)
    (hc : toInt (o 0) = .ok ((2 * q : Nat) : Int)) (s : Nat) (hs : bf3Start o = .ok (s : Int)) :
    Computes bf3Batch o s (fun x j => iir [coef bf3B0 q, coef bf3B1 q, coef bf3B2 q, coef bf3B3 q]
      [coef bf3A1 q, coef bf3A2 q, coef bf3A3 q] x (j + s)) :=
  bf3Y_eq (R := R) q ▸ bf3_run o (by simpa using h) q h1 h2 hc s hs

/-- The start of bf2 and bf3: `2·period/3.1415²` and `3·period/3.1415²`, rounded up. -/
theorem bf_start_value [LawfulCeil R] [LawfulTrunc R] (o : Nat → R) (h : 1 ≤ o 0) (h' : o 0 ≤ 41) :
    (∃ s : Nat, bf2Start o = .ok (s : Int) ∧ (s : R) - 1 < 2 * o 0 / 3.1415 ^ 2 ∧ 2 * o 0 / 3.1415 ^ 2 ≤ (s : R)) ∧
    ∃ s : Nat, bf3Start o = .ok (s : Int) ∧ (s : R) - 1 < 3 * o 0 / 3.1415 ^ 2 ∧ 3 * o 0 / 3.1415 ^ 2 ≤ (s : R) := by
  constructor
  · have e : c! 2 * o 0 / ((c! 31415 / c! 10000) * (c! 31415 / c! 10000)) = 2 * o 0 / (3.1415 : R) ^ 2 := by norm_num [pow_two]
    unfold bf2Start
    rw [e]
    exact ceil_start _ (by positivity) (by rw [div_le_iff₀ (by norm_num)]; norm_num; linarith)
  · have e : c! 3 * o 0 / ((c! 31415 / c! 10000) * (c! 31415 / c! 10000)) = 3 * o 0 / (3.1415 : R) ^ 2 := by norm_num [pow_two]
    unfold bf3Start
    rw [e]
    exact ceil_start _ (by positivity) (by rw [div_le_iff₀ (by norm_num)]; norm_num; linarith)

theorem ssmooth_value (o : Nat → R) : Computes ssmoothBatch o 0 (iir [ssC1 / 2, ssC1 / 2] [ssC2, ssC3]) :=
  ssY_eq (R := R) ▸ ssmooth_run o
/-- roof: a two-pole high-pass filter followed by the super smoother. -/
theorem roof_value (o : Nat → R) : Computes roofBatch o 0 (fun x => iir [ssC1 / 2, ssC1 / 2] [ssC2, ssC3]
    (iir [(1 - roofAlpha / 2) ^ 2, -2 * (1 - roofAlpha / 2) ^ 2, (1 - roofAlpha / 2) ^ 2]
      [2 * (1 - roofAlpha), -(1 - roofAlpha) ^ 2] x)) := by
  have := roof_run o
  rw [ssY_eq, roofY_eq] at this
  exact this
/-- lf: four first-order sections in a row, weighted 1 : 2 : 2 : 1. -/
theorem lf_value (o : Nat → R) (h : 0 ≤ o 0) : Computes lfBatch o 0 (fun x n =>
    let L0 := iir [1 - o 0] [o 0] x
    let L1 := iir [-o 0, 1] [o 0] L0
    let L2 := iir [-o 0, 1] [o 0] L1
    let L3 := iir [-o 0, 1] [o 0] L2
    (L0 n + 2 * L1 n + 2 * L2 n + L3 n) / 6) := by
  have := lf_run o (by simpa using h)
  have e : lfY (o 0) = _ := funext fun x => funext fun n => lfY_eq (o 0) x n
  rw [e] at this
  exact this
/-- rema: starts as an exponential average, then bends by the last move with weight lambda. -/
theorem rema_value (o : Nat → R) (h1 : 1 ≤ o 0) (h2 : 0 ≤ o 1) : ∃ y : (Nat → R) → Nat → R, Computes remaBatch o 0 y ∧ ∀ x,
    y x 0 = x 0 ∧ y x 1 = y x 0 + 2 / (1 + o 0) * (x 1 - y x 0) ∧
    ∀ n, y x (n + 2) = (y x (n + 1) + 2 / (1 + o 0) * (x (n + 2) - y x (n + 1)) + o 1 * (y x (n + 1) + (y x (n + 1) - y x n))) / (1 + o 1) := by
  refine ⟨_, rema_run o (fun h => ?_), fun x => ⟨rema0 o x, rema1 o x, fun n => ?_⟩⟩
  · rcases h with h | h
    · exact absurd h (by simpa using h1)
    · exact absurd h (by simpa using h2)
  · rw [rema2]; congr 1; ring

/-- With lambda 0 rema is the exponential moving average. -/
theorem rema_lambda_zero (o : Nat → R) (h1 : 1 ≤ o 0) (h2 : o 1 = 0) : Computes remaBatch o 0 (ema (2 / (1 + o 0))) := by
  have hr := rema_run o (fun h => by
    rcases h with h | h
    · exact absurd h (by simpa using h1)
    · rw [h2] at h; simp at h)
  have e : remaY o = ema (2 / (1 + o 0)) := by
    funext x n
    match n with
    | 0 => rfl
    | 1 => exact rema1 o x
    | n + 2 =>
      suffices ∀ n, remaY o x n = ema (2 / (1 + o 0)) x n from this _
      intro n
      induction n using Nat.strong_induction_on with
      | _ n ih =>
        match n with
        | 0 => rfl
        | 1 => exact rema1 o x
        | n + 2 => rw [rema2, h2, ih _ (by omega)]; simp [ema]
  exact e ▸ hr

/-- rema and gf4 reproduce a constant series exactly, from the first bar. -/
theorem rema_constant (o : Nat → R) (h1 : 1 ≤ o 0) (h2 : 0 ≤ o 1) (c : R) (N : Nat) :
    remaBatch o (pre (fun _ => c) N) = .ok (.okay, pre (fun _ => c) N) := by
  rw [rema_run o (fun h => by
    rcases h with h | h
    · exact absurd h (by simpa using h1)
    · exact absurd h (by simpa using h2))]
  have e : remaY o (fun _ => c) = fun _ => c := by
    funext n
    induction n using Nat.strong_induction_on with
    | _ n ih =>
      match n with
      | 0 => rfl
      | 1 => rw [rema1]; ring
      | n + 2 =>
        have : (1 : R) + o 1 ≠ 0 := by positivity
        rw [rema2, ih _ (by omega), ih _ (by omega)]
        field_simp; ring
  rw [e]; rfl
theorem gf4_constant (o : Nat → R) (q : Nat) (h1 : 1 ≤ q) (h2 : q ≤ 20) (hc : toInt (o 0) = .ok ((2 * q : Nat) : Int)) (c : R)
    (N : Nat) (hN : 5 ≤ N) : gf4Batch o (pre (fun _ => c) N) = .ok (.okay, pre (fun _ => c) N) := by
  rw [gf4_run o q h1 h2 hc _ N hN]
  have e : gf4Y q (fun _ => c) = fun _ => c := by
    funext n
    induction n using Nat.strong_induction_on with
    | _ n ih =>
      by_cases hn : n < 5
      · exact gf4Y_copy q _ n hn
      · obtain ⟨m, rfl⟩ : ∃ m, n = m + 5 := ⟨n - 5, by omega⟩
        have hs := gf4_sum (R := R) q h1 h2
        rw [gf4Y_filt, ih _ (by omega), ih _ (by omega), ih _ (by omega), ih _ (by omega)]
        field_simp
  rw [e]
/-- gf4: the first five bars are copied, then each value is the normalised combination of the bar and four values. -/
theorem gf4_value_partial (o : Nat → R) (q : Nat) (h1 : 1 ≤ q) (h2 : q ≤ 20) (hc : toInt (o 0) = .ok ((2 * q : Nat) : Int)) :
    ∃ y : (Nat → R) → Nat → R, (∀ x N, 5 ≤ N → gf4Batch o (pre x N) = .ok (.okay, pre (y x) N)) ∧
      (∀ x n, n < 5 → y x n = x n) ∧
      ∀ x n, y x (n + 5) = (coef gf4B0 q * x (n + 5) + coef gf4A1 q * y x (n + 4) + coef gf4A2 q * y x (n + 3) +
        coef gf4A3 q * y x (n + 2) + coef gf4A4 q * y x (n + 1)) /
        (coef gf4B0 q + coef gf4A1 q + coef gf4A2 q + coef gf4A3 q + coef gf4A4 q) :=
  ⟨gf4Y q, gf4_run o q h1 h2 hc, gf4Y_copy q, fun x n => by rw [gf4Y_filt]⟩

/-! Linear, time-invariant filters (C44). -/

/-- Every batch filter with zero history answers a sum of scaled series with the sum of the scaled answers, and a
delayed series with the delayed answer. -/
theorem gf_linear (o : Nat → R) (q : Nat) (h1 : 1 ≤ q) (h2 : q ≤ 20) (hc : toInt (o 0) = .ok ((2 * q : Nat) : Int)) :
    (∃ F, Computes gf1Batch o 0 F ∧ Superposes F ∧ TimeInvariant F) ∧
    (∃ F, Computes gf2Batch o 0 F ∧ Superposes F ∧ TimeInvariant F) ∧
    ∃ F, Computes gf3Batch o 0 F ∧ Superposes F ∧ TimeInvariant F :=
  ⟨⟨_, gf1_value o q h1 h2 hc, iir_superposes _ _, iir_delay _ _⟩, ⟨_, gf2_value o q h1 h2 hc, iir_superposes _ _, iir_delay _ _⟩,
    ⟨_, gf3_ignores_period o q h1 h2 hc, iir_superposes _ _, iir_delay _ _⟩⟩
theorem bf_linear (o : Nat → R) (h : 1 ≤ o 0) (q : Nat) (h1 : 1 ≤ q) (h2 : q ≤ 20)
    (hc : toInt (o 0) = .ok ((2 * q : Nat) : Int)) (s t : Nat) (hs : bf2Start o = .ok (s : Int)) (ht : bf3Start o = .ok (t : Int)) :
    (∃ F, Computes bf2Batch o s (fun x j => F x (j + s)) ∧ Superposes F ∧ TimeInvariant F) ∧
    ∃ F, Computes bf3Batch o t (fun x j => F x (j + t)) ∧ Superposes F ∧ TimeInvariant F :=
  ⟨⟨_, bf2_value o h q h1 h2 hc s hs, iir_superposes _ _, iir_delay _ _⟩, ⟨_, bf3_value o h q h1 h2 hc t ht, iir_superposes _ _, iir_delay _ _⟩⟩
theorem ssmooth_linear (o : Nat → R) : ∃ F, Computes ssmoothBatch o 0 F ∧ Superposes F ∧ TimeInvariant F :=
  ⟨_, ssmooth_value o, iir_superposes _ _, iir_delay _ _⟩
theorem roof_linear (o : Nat → R) : ∃ F, Computes roofBatch o 0 F ∧ Superposes F ∧ TimeInvariant F :=
  ⟨_, roof_value o, superposes_comp (iir_superposes _ _) (iir_superposes _ _), timeInvariant_comp (iir_delay _ _) (iir_delay _ _)⟩
theorem lf_linear (o : Nat → R) (h : 0 ≤ o 0) : ∃ F, Computes lfBatch o 0 F ∧ Superposes F ∧ TimeInvariant F := by
  refine ⟨_, lf_value o h, ?_, ?_⟩
  · have s0 := iir_superposes [1 - o 0] [o 0]
    have s1 := superposes_comp (iir_superposes [-o 0, 1] [o 0]) s0
    have s2 := superposes_comp (iir_superposes [-o 0, 1] [o 0]) s1
    have s3 := superposes_comp (iir_superposes [-o 0, 1] [o 0]) s2
    intro s t x y n
    have a := s0 s t x y n
    have b := s1 s t x y n
    have c := s2 s t x y n
    have d := s3 s t x y n
    dsimp only at a b c d ⊢
    rw [a, b, c, d]; ring
  · have s0 := iir_delay [1 - o 0] [o 0]
    have s1 := timeInvariant_comp (iir_delay [-o 0, 1] [o 0]) s0
    have s2 := timeInvariant_comp (iir_delay [-o 0, 1] [o 0]) s1
    have s3 := timeInvariant_comp (iir_delay [-o 0, 1] [o 0]) s2
    intro d x n
    have a := s0 d x n
    have b := s1 d x n
    have c := s2 d x n
    have e := s3 d x n
    dsimp only at a b c e ⊢
    rw [a, b, c, e]
    unfold delay
    split <;> simp

/-! Constants (C39). -/

theorem gf1_settles (o : Nat → R) (q : Nat) (h1 : 1 ≤ q) (h2 : q ≤ 20) (hc : toInt (o 0) = .ok ((2 * q : Nat) : Int)) :
    ∃ F, Computes gf1Batch o 0 F ∧ Settles 1 F :=
  ⟨_, gf1_value o q h1 h2 hc, iir_settles _ _ (by simpa using gf1_sum q h1 h2) _ (by simp) (by simp)⟩
theorem gf2_settles (o : Nat → R) (q : Nat) (h1 : 1 ≤ q) (h2 : q ≤ 20) (hc : toInt (o 0) = .ok ((2 * q : Nat) : Int)) :
    ∃ F, Computes gf2Batch o 0 F ∧ Settles 2 F :=
  ⟨_, gf2_value o q h1 h2 hc, iir_settles _ _ (by
    have := gf2_sum (R := R) q h1 h2
    simp only [List.sum_cons, List.sum_nil, add_zero]
    field_simp; ring) _ (by simp) (by simp)⟩
theorem gf3_settles (o : Nat → R) (q : Nat) (h1 : 1 ≤ q) (h2 : q ≤ 20) (hc : toInt (o 0) = .ok ((2 * q : Nat) : Int)) :
    ∃ F, Computes gf3Batch o 0 F ∧ Settles 3 F :=
  ⟨_, gf3_ignores_period o q h1 h2 hc, iir_settles _ _ (by norm_num) _ (by simp) (by simp)⟩
theorem ssmooth_settles (o : Nat → R) : ∃ F, Computes ssmoothBatch o 0 F ∧ Settles 2 F :=
  ⟨_, ssmooth_value o, iir_settles _ _ (by
    simp only [List.sum_cons, List.sum_nil, add_zero, ssC1, Int.cast_one]; ring) _ (by simp) (by simp)⟩

/-- A constant series is approached geometrically by gf1. -/
theorem gf1_constant (o : Nat → R) (q : Nat) (h1 : 1 ≤ q) (h2 : q ≤ 20) (hc : toInt (o 0) = .ok ((2 * q : Nat) : Int)) (c : R) (N : Nat) :
    gf1Batch o (pre (fun _ => c) N) = .ok (.okay, pre (fun n => c * (1 - (coef gf1A1 q) ^ (n + 1))) N) := by
  rw [gf1_value o q h1 h2 hc]
  congr 3
  funext n
  have hs := gf1_sum (R := R) q h1 h2
  induction n with
  | zero => simp only [iir, iirPast, dot_nil_right, past, dot_cons, dot_nil]; linear_combination c * hs
  | succ n ih =>
    have : iir [coef gf1B0 q] [(coef gf1A1 q : R)] (fun _ => c) (n + 1) =
      coef gf1B0 q * c + coef gf1A1 q * iir [coef gf1B0 q] [coef gf1A1 q] (fun _ => c) n := by
      conv_lhs => unfold iir
      rw [iirPast, past, dot_cons, dot_nil, dot_cons, dot_nil, add_zero, add_zero]; rfl
    rw [this, ih, pow_succ]; linear_combination c * hs

/-- The coefficients of bf2 (bf3) add up to one within 10⁻⁶ (2·10⁻⁶). What the outputs approach when the price rests: `bf2_follows`, `bf3_follows`. -/
theorem bf_gain (q : Nat) (h1 : 1 ≤ q) (h2 : q ≤ 20) :
    |((coef bf2B0 q : R) + coef bf2B1 q + coef bf2B2 q + coef bf2A1 q + coef bf2A2 q) - 1| ≤ 1 / 1000000 ∧
    |((coef bf3B0 q : R) + coef bf3B1 q + coef bf3B2 q + coef bf3B3 q + coef bf3A1 q + coef bf3A2 q + coef bf3A3 q) - 1| ≤ 2 / 1000000 := by
  have b2 := rows (P := fun i => 999999 ≤ bf2B0.getD i 0 + bf2B1.getD i 0 + bf2B2.getD i 0 + bf2A1.getD i 0 + bf2A2.getD i 0 ∧
    bf2B0.getD i 0 + bf2B1.getD i 0 + bf2B2.getD i 0 + bf2A1.getD i 0 + bf2A2.getD i 0 ≤ 1000001) (by decide) q h1 h2
  have b3 := rows (P := fun i => 999998 ≤ bf3B0.getD i 0 + bf3B1.getD i 0 + bf3B2.getD i 0 + bf3B3.getD i 0 + bf3A1.getD i 0 + bf3A2.getD i 0 + bf3A3.getD i 0 ∧
    bf3B0.getD i 0 + bf3B1.getD i 0 + bf3B2.getD i 0 + bf3B3.getD i 0 + bf3A1.getD i 0 + bf3A2.getD i 0 + bf3A3.getD i 0 ≤ 1000002) (by decide) q h1 h2
  simp only [coef_cast, ← add_div, ← Int.cast_add]
  exact ⟨by simpa using near_one (R := R) _ 1 b2.1 b2.2, by simpa using near_one (R := R) _ 2 b3.1 b3.2⟩

/-! Bounds. -/

theorem gf1_bounds (o : Nat → R) (q : Nat) (h1 : 1 ≤ q) (h2 : q ≤ 20) (hc : toInt (o 0) = .ok ((2 * q : Nat) : Int))
    (xs out : List R) (lo hi : R) (hlo : lo ≤ 0) (hhi : 0 ≤ hi) (hx : ∀ v ∈ xs, lo ≤ v ∧ v ≤ hi)
    (hr : gf1Batch o xs = .ok (.okay, out)) : ∀ v ∈ out, lo ≤ v ∧ v ≤ hi := by
  refine (gf1_value o q h1 h2 hc).bounded (fun x N h => ?_) xs out hx hr
  exact iir1_bounds _ _ (coef_pos gf1B0 (by decide) q h1 h2).le (coef_pos gf1A1 (by decide) q h1 h2).le (gf1_sum q h1 h2).le x N lo hi hlo hhi h
theorem gf3_bounds (o : Nat → R) (q : Nat) (h1 : 1 ≤ q) (h2 : q ≤ 20) (hc : toInt (o 0) = .ok ((2 * q : Nat) : Int))
    (xs out : List R) (lo hi : R) (hlo : lo ≤ 0) (hhi : 0 ≤ hi) (hx : ∀ v ∈ xs, lo ≤ v ∧ v ≤ hi)
    (hr : gf3Batch o xs = .ok (.okay, out)) : ∀ v ∈ out, lo ≤ v ∧ v ≤ hi := by
  refine (gf3_ignores_period o q h1 h2 hc).bounded (fun x N h => ?_) xs out hx hr
  exact gf3_bounds_aux x N lo hi hlo hhi h

end Exact

/-! ### Instances -/

example : gf1Batch (opts [2]) [1, 1] = .ok (.okay, [828427/1000000, 970562705671/1000000000000]) := by decide +kernel
example : gf3Batch (opts [2]) [4, 4, 8] = gf3Batch (opts [40]) [4, 4, 8] ∧
    gf3Batch (opts [2]) [4, 4, 8] = .ok (.okay, [1, 5/4, 41/16]) := by decide +kernel
example : gf4Batch (opts [10]) [3, 3, 3, 3] = .error .oobRead := by decide +kernel
example : gf4Batch (opts [10]) [3, 3, 3, 3, 3, 3] = .ok (.okay, [3, 3, 3, 3, 3, 3]) := by decide +kernel
example : bf2Start (opts [10]) = .ok 3 ∧ bf3Start (opts [10]) = .ok 4 ∧
    bf2Batch (opts [2]) [1, 0, 0] = .ok (.okay, [571568/1000000 + -131366/1000000 * (285784/1000000),
      285784/1000000 + -11770/1000000 * (285784/1000000) + -131366/1000000 * (571568/1000000 + -131366/1000000 * (285784/1000000))]) := by
  decide +kernel
example : (bf2 (R := ℚ)).session (opts [2]) [[1], [], [0, 0]] = (bf2 (R := ℚ)).session (opts [2]) [[1, 0, 0]] := by decide +kernel
example : remaBatch (opts [3, 1]) [1, 2, 4, 4] = .ok (.okay, [1, 3/2, 19/8, 103/32]) := by decide +kernel
example : (rema (R := ℚ)).session (opts [3, 1]) [[1], [2], [4, 4]] = (rema (R := ℚ)).session (opts [3, 1]) [[1, 2, 4, 4]] := by decide +kernel
example : lfBatch (opts [0]) [6, 0, 0, 0, 12] = .ok (.okay, [1, 2, 2, 1, 2]) := by decide +kernel
example : gf1Batch (opts [3]) [1] = .ok (.invalidOption, []) ∧ gf1Batch (opts [42]) [1] = .ok (.invalidOption, []) ∧
    bf2Batch (opts [1/2]) [1] = .ok (.invalidOption, []) ∧ remaBatch (opts [3, -1]) [1] = .ok (.invalidOption, []) := by decide +kernel

end Verif
