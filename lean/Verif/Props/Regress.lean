/-
C51 (pbands, posc) and C52 (rvi): values, ranges, contracts, streams and reference implementations.
-/
import Verif.Proof.Regress
import Verif.Props.Trend
import Verif.Props.Flow
import Verif.Props.Average
import Verif.Proof.EmaField
import Verif.Spec.Regress
import Verif.Core.RatInst
import Mathlib.Order.Bounds.Basic
import Mathlib.Tactic.LinearCombination
import Mathlib.Tactic.FieldSimp

namespace Verif
open Spec Finset
set_option linter.unusedSectionVars false
set_option linter.unusedSimpArgs false

section Any
variable {R : Type} [Num R]

/-! ### Any arithmetic -/

theorem rvi_refuses (o : Nat → R) (e p : Int) (h0 : toInt (o 0) = .ok e) (h1 : toInt (o 1) = .ok p) (h : e < 1 ∨ p < 1) :
    Refuses rviBatch o := by
  intro xs
  by_cases he : e < 1
  · simp [rviBatch, h0, h1, he]
  · simp [rviBatch, h0, h1, he, h.resolve_left he]
theorem rvi_stream_refuses (o : Nat → R) (h : o 0 < c! 1 ∨ o 1 < c! 1) : (rvi (R := R)).NewRefuses o := by
  by_cases he : o 0 < c! 1
  · simp [Indicator.NewRefuses, rvi, rviNew, he]
  · simp [Indicator.NewRefuses, rvi, rviNew, he, h.resolve_left he]
theorem rvi_chunks (o : Nat → R) : (rvi (R := R)).ChunkInvariant o := chunkInvariant_of rviPhases_ordered o

theorem pbands_refuses (o : Nat → R) (p : Int) (hc : toInt (o 0) = .ok p) (hp : p < 1) : Refuses pbandsBatch o :=
  fun xs => by simp [pbandsBatch, hc, hp]
theorem pbands_stream_refuses (o : Nat → R) (h : o 0 < c! 1) : (pbands (R := R)).NewRefuses o := by
  simp [Indicator.NewRefuses, pbands, pbandsNew, h]
theorem pbands_chunks (o : Nat → R) : (pbands (R := R)).ChunkInvariant o := chunkInvariant_of pbandsPhases_ordered o

theorem posc_refuses (o : Nat → R) (p e : Int) (h0 : toInt (o 0) = .ok p) (h1 : toInt (o 1) = .ok e) (h : p < 1 ∨ e < 1) :
    Refuses poscBatch o := by
  intro xs
  by_cases he : p < 1
  · simp [poscBatch, h0, h1, he]
  · simp [poscBatch, h0, h1, he, h.resolve_left he]
theorem posc_stream_refuses (o : Nat → R) (h : o 0 < c! 1 ∨ o 1 < c! 1) : (posc (R := R)).NewRefuses o := by
  by_cases he : o 0 < c! 1
  · simp [Indicator.NewRefuses, posc, poscNew, he]
  · simp [Indicator.NewRefuses, posc, poscNew, he, h.resolve_left he]
theorem posc_chunks (o : Nat → R) : (posc (R := R)).ChunkInvariant o := chunkInvariant_of poscPhases_ordered o

/-- With a period from 1024 on, `period * (period + 1) * (2 * period + 1)` is not an `int`, whatever the input. -/
theorem rvi_overflow (o : Nat → R) (e p : Nat) (h0 : toInt (o 0) = .ok (e : Int)) (h1 : toInt (o 1) = .ok (p : Int)) (he : 1 ≤ e)
    (hp : 2147483647 < p * (p + 1) * (2 * p + 1)) (xs : List R) : rviBatch o xs = .error .intRange := by
  have : 1 ≤ p := by rcases p with _ | p <;> omega
  simp only [rviBatch, h0, h1, bind_ok]
  rw [if_neg (by omega), if_neg (by omega), regConst_err p hp]
  rfl
/-- pbands with a period from 1024 on: `period * (period + 1) * (2 * period + 1)` is not an `int`. -/
theorem pbands_overflow (o : Nat → R) (p : Nat) (h0 : toInt (o 0) = .ok (p : Int)) (hp : 2147483647 < p * (p + 1) * (2 * p + 1))
    (xs : List (HLC R)) : pbandsBatch o xs = .error .intRange := by
  have : 1 ≤ p := by rcases p with _ | p <;> omega
  simp only [pbandsBatch, h0, bind_ok]
  rw [if_neg (by omega), regConst_err p hp]
  rfl
/-- posc first looks at the length of the input. -/
theorem posc_overflow [IntExact R] (o : Nat → R) (p e : Nat) (h0 : toInt (o 0) = .ok (p : Int)) (h1 : toInt (o 1) = .ok (e : Int))
    (he : 1 ≤ e) (hp : 2147483647 < p * (p + 1) * (2 * p + 1)) (xs : List (HLC R)) (hx : p ≤ xs.length) :
    poscBatch o xs = .error .intRange := by
  have : 1 ≤ p := by rcases p with _ | p <;> omega
  have hs : pbandsStart o = .ok ((p - 1 : Nat) : Int) := toInt_sub_one h0 this
  simp only [poscBatch, h0, h1, bind_ok, hs]
  rw [if_neg (by omega), if_neg (by omega), if_neg (by omega), regConst_err p hp]
  rfl

variable [IntExact R]

/-- Partial: from period 1024 on an `int` overflows (`rvi_overflow`), and so does `ema_period + 1` for the largest value
(`rvi_ema_overflow`). -/
theorem rvi_contract_partial (o : Nat → R) (p e : Nat) (hce : toInt (o 0) = .ok (e : Int)) (hcp : toInt (o 1) = .ok (p : Int))
    (he : 1 ≤ e) (hp : 1 ≤ p) (hb : e < 2147483647) (hpp : p * (p + 1) * (2 * p + 1) ≤ 2147483647) :
    Contract rviStart rviBatch o (p - 1) :=
  (rvi_run o p e hce hcp he hp (toInt_sub_one hcp hp) hb hpp).contract (toInt_sub_one hcp hp)
/-- Partial: as for rvi (`pbands_overflow`). -/
theorem pbands_contract_partial (o : Nat → R) (p : Nat) (hcp : toInt (o 0) = .ok (p : Int)) (hp : 1 ≤ p)
    (hpp : p * (p + 1) * (2 * p + 1) ≤ 2147483647) : Contract pbandsStart pbandsBatch o (p - 1) :=
  (pbands_run o p hcp hp (toInt_sub_one hcp hp) hpp).contract (toInt_sub_one hcp hp)
/-- Partial: as for rvi (`posc_overflow`, `posc_ema_overflow`). -/
theorem posc_contract_partial (o : Nat → R) (p e : Nat) (hcp : toInt (o 0) = .ok (p : Int)) (hce : toInt (o 1) = .ok (e : Int))
    (hp : 1 ≤ p) (he : 1 ≤ e) (hb : e < 2147483647) (hpp : p * (p + 1) * (2 * p + 1) ≤ 2147483647) :
    Contract pbandsStart poscBatch o (p - 1) :=
  (posc_run o p e hcp hce hp he (toInt_sub_one hcp hp) hb hpp).contract (toInt_sub_one hcp hp)

/-- rvi in any arithmetic with exact integers: the stream writes bit for bit what the batch call writes. Partial: whole-number
periods (`rvi_stream_ne_batch`) that do not overflow. -/
theorem rvi_stream_eq_batch_partial (o : Nat → R) (p e : Nat) (ho : o 1 = ((p : Int) : R)) (hce : toInt (o 0) = .ok (e : Int))
    (he : 1 ≤ e) (hp : 1 ≤ p) (hb : e < 2147483647) (hpp : p * (p + 1) * (2 * p + 1) ≤ 2147483647) :
    (rvi (R := R)).StreamEqBatch o (p - 1) := by
  have hlt := regP_lt hpp
  have hcp : toInt (o 1) = .ok (p : Int) := by rw [ho]; exact toInt_cast _ (by omega)
  have hs := rvi_stream_run o p e hce hcp (not_lt_one hce he) (not_lt_one hcp hp) (toInt_add_one p ho (by omega)) he hp
    (toInt_sub_one hcp hp) hb
  rw [regConstR_cast p ho hpp] at hs
  exact streamEqBatch_of (rvi_run o p e hce hcp he hp (toInt_sub_one hcp hp) hb hpp) hs
/-- pbands, likewise. `hbd`: rounding the period up leaves it alone. -/
theorem pbands_stream_eq_batch_partial (o : Nat → R) (p : Nat) (ho : o 0 = ((p : Int) : R)) (hp : 1 ≤ p)
    (hbd : bound (o 0) = .ok (p : Int)) (hpp : p * (p + 1) * (2 * p + 1) ≤ 2147483647) :
    (pbands (R := R)).StreamEqBatch o (p - 1) := by
  have hlt := regP_lt hpp
  have hcp : toInt (o 0) = .ok (p : Int) := by rw [ho]; exact toInt_cast _ (by omega)
  exact streamEqBatch_of (pbands_run o p hcp hp (toInt_sub_one hcp hp) hpp) (pbands_stream_run o p ho hp hbd hpp)
/-- posc, likewise. -/
theorem posc_stream_eq_batch_partial (o : Nat → R) (p e : Nat) (ho : o 0 = ((p : Int) : R)) (ho1 : o 1 = ((e : Int) : R))
    (hp : 1 ≤ p) (he : 1 ≤ e) (hbd : bound (o 0) = .ok (p : Int)) (hb : e < 2147483647)
    (hpp : p * (p + 1) * (2 * p + 1) ≤ 2147483647) : (posc (R := R)).StreamEqBatch o (p - 1) := by
  have hlt := regP_lt hpp
  have hcp : toInt (o 0) = .ok (p : Int) := by rw [ho]; exact toInt_cast _ (by omega)
  have hce : toInt (o 1) = .ok (e : Int) := by rw [ho1]; exact toInt_cast _ (by omega)
  exact streamEqBatch_of (posc_run o p e hcp hce hp he (toInt_sub_one hcp hp) hb hpp) (posc_stream_run o p e ho ho1 hp he hb hbd hpp)

/-- The largest EMA period makes any input as long as the period overflow. -/
theorem rvi_ema_overflow (o : Nat → R) (p : Nat) (hce : toInt (o 0) = .ok 2147483647) (hcp : toInt (o 1) = .ok (p : Int)) (hp : 1 ≤ p)
    (hpp : p * (p + 1) * (2 * p + 1) ≤ 2147483647) (xs : List R) (hx : p ≤ xs.length) : rviBatch o xs = .error .intRange := by
  have : Inhabited R := ⟨c! 0⟩
  obtain ⟨x, hxs⟩ := exists_pre xs
  generalize xs.length = N at hx hxs
  subst hxs
  have hb : i32 (2147483647 + 1) = .error .intRange := by unfold i32; rw [if_neg (by omega)]
  have hs : rviStart o = .ok ((p - 1 : Nat) : Int) := toInt_sub_one hcp hp
  simp only [rviBatch, hce, hcp, bind_ok, hs]
  rw [if_neg (by omega), if_neg (by omega), regConst_ok p hpp, bind_ok]
  refine loopBatch_err _ ((rviLoops_ordered _ _ _ _).from _) x (fun n => (regAt p x n, ⟨c! 0, c! 0⟩)) (fun _ => []) _ (p - 1) ?_ ?_ ?_ N
    (by omega)
  · rw [regAt_zero]
  · intro n hn
    simp only [barStep, rviLoops, List.find?]
    rw [decide_eq_true (by omega)]
    simp only [Int.zero_add, pure_eq, regAt_warm p x n hn]
  · simp only [barStep, rviLoops, List.find?]
    rw [decide_eq_false (by omega)]
    simp only [rviBar]
    rw [hb]
    rfl

end Any

/-- The reference implementations do not validate the period: below 1 they read outside the input, whatever it is. -/
theorem projRef_reads {R : Type} [Num R] {α : Type} (o : Nat → R) (xs : List (HLC R)) (bs : List R) (start : Int) (hs : start < 0)
    (k : HLC R × Pband R → List α → M (List α)) : (forUp start xs.length ([] : List α) fun i out => do
      let r ← projRow o xs bs start i
      k r out) = .error .oobRead := by
  unfold forUp
  obtain ⟨n, hn⟩ : ∃ n, ((xs.length : Int) - start).toNat = n + 1 := ⟨((xs.length : Int) - start).toNat - 1, by omega⟩
  rw [hn, iter]
  have : projRow o xs bs start start = .error .oobRead := by
    unfold projRow
    rw [rd_oob _ _ (by omega)]
    rfl
  rw [this]
  rfl
/-- The reference of pbands does not validate its period: with one below 1 it reads past its buffer. -/
theorem pbands_ref_violates {R : Type} [Num R] (o : Nat → R) (p : Int) (hc : toInt (o 0) = .ok p) (hp : p < 1) (hm : -2147483648 < p)
    (xs : List (HLC R)) : pbandsRef o xs = .error .oobRead := by
  simp only [pbandsRef, linregStart, hc, bind_ok]
  rw [i32_ok _ (by omega) (by omega), bind_ok]
  simp only [linregslopeBatch, hc, bind_ok]
  rw [if_pos hp, pure_eq, bind_ok, projRef_reads o xs _ _ (by omega)]
  rfl
/-- The reference of posc does not validate its period: with one below 1 it reads past its buffer. -/
theorem posc_ref_violates {R : Type} [Num R] (o : Nat → R) (p : Int) (hc : toInt (o 0) = .ok p) (hp : p < 1) (hm : -2147483648 < p)
    (xs : List (HLC R)) : poscRef o xs = .error .oobRead := by
  simp only [poscRef, linregStart, hc, bind_ok]
  rw [i32_ok _ (by omega) (by omega), bind_ok]
  simp only [linregslopeBatch, hc, bind_ok]
  rw [if_pos hp, pure_eq, bind_ok, projRef_reads o xs _ _ (by omega)]
  rfl

/-! ### Exact arithmetic -/

section Field
variable {R : Type} [Field R] [LinearOrder R] [IsStrictOrderedRing R] [CMath R]

theorem regX_eq (p : Nat) (hp : 1 ≤ p) : (regK p).1 = (lrX p : R) ∧ (regK p).2 = (lrX2 p : R) := by
  have h1 : ∀ k : Nat, ∑ i ∈ range k, ((i + 1 : Nat) : R) = (k : R) * (k + 1) / 2 := by
    intro k
    induction k with
    | zero => simp
    | succ k ih => rw [sum_range_succ, ih]; push_cast; ring
  have h2 : ∀ k : Nat, ∑ i ∈ range k, ((i + 1 : Nat) : R) ^ 2 = (k : R) * (k + 1) * (2 * k + 1) / 6 := by
    intro k
    induction k with
    | zero => simp
    | succ k ih => rw [sum_range_succ, ih]; push_cast; ring
  rw [lrX_eq p hp, lrX2_eq p hp, h1, h2]
  constructor
  · simp only [regK]; push_cast; ring
  · simp only [regK]; push_cast; ring

theorem regB_eq (p : Nat) (hp : 1 ≤ p) (x : Nat → R) (j : Nat) : regB p (regK p) x j = lrB x p j := by
  have hp0 : (p : R) ≠ 0 := by exact_mod_cast (show p ≠ 0 by omega)
  unfold regB regSlope lrB lrBd
  rw [(regX_eq p hp).1, (regX_eq p hp).2]
  push_cast
  have e1 : lrXY x p j / (p : R) - lrX p / p * lrY x p j / p = ((p : R) * lrXY x p j - lrX p * lrY x p j) / ((p : R) * p) := by
    field_simp
  have e2 : (lrX2 p : R) / (p : R) - lrX p / p * (lrX p / p) = ((p : R) * lrX2 p - lrX p * lrX p) / ((p : R) * p) := by
    field_simp
  rw [e1, e2, div_div_div_cancel_right₀ (mul_ne_zero hp0 hp0), one_div, div_eq_mul_inv]

/-! #### pbands -/

theorem slopeMax_greatest (f : Nat → R) (b : R) (m : Nat) :
    IsGreatest {v | ∃ k, k < m + 1 ∧ v = f k + (k : R) * b} (slopeMax f b m) := by
  induction m with
  | zero =>
    refine ⟨⟨0, by omega, by simp [slopeMax]⟩, ?_⟩
    rintro _ ⟨k, hk, rfl⟩
    obtain rfl : k = 0 := by omega
    simp [slopeMax]
  | succ m ih =>
    obtain ⟨⟨k0, h0, e0⟩, hu⟩ := ih
    rw [slopeMax, stdMax_eq]
    constructor
    · rcases max_choice (slopeMax f b m) (f (m + 1) + (((m + 1 : Nat) : Int) : R) * b) with h | h
      · exact ⟨k0, by omega, by rw [h]; exact e0⟩
      · exact ⟨m + 1, by omega, by rw [h]; push_cast; rfl⟩
    · rintro _ ⟨k, hk, rfl⟩
      rcases Nat.lt_or_ge k (m + 1) with h | h
      · exact le_max_of_le_left (hu ⟨k, h, rfl⟩)
      · obtain rfl : k = m + 1 := by omega
        refine le_max_of_le_right (le_of_eq ?_)
        push_cast; rfl
theorem slopeMin_least (f : Nat → R) (b : R) (m : Nat) :
    IsLeast {v | ∃ k, k < m + 1 ∧ v = f k + (k : R) * b} (slopeMin f b m) := by
  induction m with
  | zero =>
    refine ⟨⟨0, by omega, by simp [slopeMin]⟩, ?_⟩
    rintro _ ⟨k, hk, rfl⟩
    obtain rfl : k = 0 := by omega
    simp [slopeMin]
  | succ m ih =>
    obtain ⟨⟨k0, h0, e0⟩, hu⟩ := ih
    rw [slopeMin, stdMin_eq]
    constructor
    · rcases min_choice (slopeMin f b m) (f (m + 1) + (((m + 1 : Nat) : Int) : R) * b) with h | h
      · exact ⟨k0, by omega, by rw [h]; exact e0⟩
      · exact ⟨m + 1, by omega, by rw [h]; push_cast; rfl⟩
    · rintro _ ⟨k, hk, rfl⟩
      rcases Nat.lt_or_ge k (m + 1) with h | h
      · exact min_le_of_left_le (hu ⟨k, h, rfl⟩)
      · obtain rfl : k = m + 1 := by omega
        refine min_le_of_right_le (le_of_eq ?_)
        push_cast; rfl

/-- What the bands of bar `j + p - 1` are: the highs and lows of the window carried forward along the slope of its best line. -/
def IsProjection (p : Nat) (x : Nat → HLC R) (j : Nat) (y : Pband R) : Prop :=
  ∀ a b, IsBestLine p (fun i => (x i).close) j a b →
    IsGreatest (projections p (fun i => (x i).high) b (j + (p - 1))) y.upper ∧
    IsLeast (projections p (fun i => (x i).low) b (j + (p - 1))) y.lower

theorem bandAt_projection (p : Nat) (hp : 1 ≤ p) (x : Nat → HLC R) (j : Nat) : IsProjection p x j (bandAt p (lrB (closes x) p j) x j) := by
  intro a b hb
  have key : ∀ b', (1 < p → b' = b) → IsGreatest (projections p (fun i => (x i).high) b (j + (p - 1))) (bandAt p b' x j).upper ∧
      IsLeast (projections p (fun i => (x i).low) b (j + (p - 1))) (bandAt p b' x j).lower := by
    intro b' h'
    have e : ∀ f : Nat → R, projections p f b (j + (p - 1)) = {v | ∃ k, k < p - 1 + 1 ∧ v = f (j + (p - 1) - k) + (k : R) * b'} := by
      intro f
      ext v
      constructor
      · rintro ⟨k, hk, rfl⟩
        refine ⟨k, by omega, ?_⟩
        rcases Nat.lt_or_ge 1 p with h | h
        · rw [h' h]
        · obtain rfl : k = 0 := by omega
          simp
      · rintro ⟨k, hk, rfl⟩
        refine ⟨k, by omega, ?_⟩
        rcases Nat.lt_or_ge 1 p with h | h
        · rw [h' h]
        · obtain rfl : k = 0 := by omega
          simp
    rw [e, e]
    exact ⟨slopeMax_greatest (fun i => (x (j + (p - 1) - i)).high) b' (p - 1), slopeMin_least (fun i => (x (j + (p - 1) - i)).low) b' (p - 1)⟩
  exact key _ fun h => (lr_unique (closes x) p j h a b hb).2.symm

/-- Bands: each highest high and lowest low of the window carried forward along the best line. Partial: periods whose sums
of squares are `int`s (`pbands_overflow`). -/
theorem pbands_value_partial [LawfulTrunc R] [LawfulRound R] (o : Nat → R) (p : Nat) (hcp : toInt (o 0) = .ok (p : Int)) (hp : 1 ≤ p)
    (hpp : p * (p + 1) * (2 * p + 1) ≤ 2147483647) : ∃ band : (Nat → HLC R) → Nat → Pband R,
      (∀ x j, IsProjection p x j (band x j)) ∧ Computes pbandsBatch o (p - 1) band :=
  ⟨fun x j => bandAt p (lrB (closes x) p j) x j, fun x j => bandAt_projection p hp x j,
    (pbands_run o p hcp hp (toInt_sub_one hcp hp) hpp).congr fun x j => by rw [regB_eq p hp]⟩
/-- Partial: whole-number periods as well (`pbands_stream_ne_batch`). -/
theorem pbands_stream_value_partial [LawfulCeil R] [LawfulTrunc R] [LawfulRound R] (o : Nat → R) (p : Nat) (ho : o 0 = ((p : Int) : R))
    (hp : 1 ≤ p) (hpp : p * (p + 1) * (2 * p + 1) ≤ 2147483647) : ∃ band : (Nat → HLC R) → Nat → Pband R,
      (∀ x j, IsProjection p x j (band x j)) ∧ (pbands (R := R)).StreamComputes o (p - 1) band :=
  ⟨fun x j => bandAt p (lrB (closes x) p j) x j, fun x j => bandAt_projection p hp x j,
    StreamComputes.congr (pbands_stream_run o p ho hp (bound_cast p ho (by have := regP_lt hpp; omega)) hpp)
      fun x j => by rw [regB_eq p hp]⟩
/-- Partial: whole-number periods (`pbands_ref_fractional_violates`, `pbands_ref_violates`). -/
theorem pbands_ref_eq_batch_partial [LawfulCeil R] [LawfulTrunc R] [LawfulRound R] (o : Nat → R) (p : Nat) (ho : o 0 = ((p : Int) : R))
    (hp : 1 ≤ p) (hpp : p * (p + 1) * (2 * p + 1) ≤ 2147483647) (xs : List (HLC R)) : pbandsRef o xs = pbandsBatch o xs := by
  have hlt := regP_lt hpp
  have hcp : toInt (o 0) = .ok (p : Int) := toInt_cast' ho (by omega)
  have : Inhabited (HLC R) := ⟨⟨0, 0, 0⟩⟩
  obtain ⟨x, hx⟩ := exists_pre xs
  rw [hx, pbandsRef_run o p hcp hp (bound_cast p ho (by omega)) (toInt_sub_one hcp hp) (by nlinarith) x,
    ((pbands_run o p hcp hp (toInt_sub_one hcp hp) hpp).congr fun x j => by rw [regB_eq p hp]) x]

theorem bestLine_exists (p : Nat) (hp : 1 ≤ p) (x : Nat → R) (j : Nat) : ∃ a b, IsBestLine p x j a b := by
  rcases Nat.lt_or_ge 1 p with h | h
  · exact ⟨_, _, lr_best x p j h⟩
  · obtain rfl : p = 1 := by omega
    refine ⟨x j, 0, fun a' b' => ?_⟩
    simp only [sqErr, sum_range_one]
    norm_num
    positivity

/-- The bands enclose the current bar. -/
theorem projection_encloses (p : Nat) (hp : 1 ≤ p) (x : Nat → HLC R) (j : Nat) (y : Pband R) (h : IsProjection p x j y) :
    (x (j + (p - 1))).high ≤ y.upper ∧ y.lower ≤ (x (j + (p - 1))).low := by
  obtain ⟨a, b, hab⟩ := bestLine_exists p hp (fun i => (x i).close) j
  obtain ⟨h1, h2⟩ := h a b hab
  exact ⟨h1.2 ⟨0, by omega, by simp⟩, h2.2 ⟨0, by omega, by simp⟩⟩
/-- Every output of pbands encloses its bar: the upper band is at least the high, the lower at most the low. -/
theorem pbands_encloses_partial [LawfulTrunc R] [LawfulRound R] (o : Nat → R) (p : Nat) (hcp : toInt (o 0) = .ok (p : Int)) (hp : 1 ≤ p)
    (hpp : p * (p + 1) * (2 * p + 1) ≤ 2147483647) (x : Nat → HLC R) (N : Nat) :
    ∃ y, pbandsBatch o (pre x N) = .ok (.okay, pre y (N - (p - 1))) ∧
      ∀ j, (x (j + (p - 1))).high ≤ (y j).upper ∧ (y j).lower ≤ (x (j + (p - 1))).low := by
  obtain ⟨band, h1, h2⟩ := pbands_value_partial o p hcp hp hpp
  exact ⟨band x, h2 x N, fun j => projection_encloses p hp x j _ (h1 x j)⟩

/-! #### posc -/

theorem poscVal_eq (c : R) (b : Pband R) : poscVal c b = percentOf b.lower b.upper c := by
  unfold poscVal percentOf
  by_cases h : c - b.lower = 0
  · rw [if_pos (by simpa using h), h]; simp
  · rw [if_neg (by simpa using h)]; simp
theorem poscSeq_eq (e : Nat) (f : Nat → R) (j : Nat) : poscSeq ((1 + (e : Int) : Int) : R) f j = ema (emaCoef e) f j := by
  induction j with
  | zero => rfl
  | succ j ih =>
    rw [poscSeq, poscEma, ih, ema, emaCoef]
    push_cast
    rw [add_comm 1 (e : R)]
    ring

/-- The oscillator: the exponential average of where the close lies between the bands. Partial: periods that do not
overflow. -/
theorem posc_value_partial [LawfulTrunc R] [LawfulRound R] (o : Nat → R) (p e : Nat) (hcp : toInt (o 0) = .ok (p : Int))
    (hce : toInt (o 1) = .ok (e : Int)) (hp : 1 ≤ p) (he : 1 ≤ e) (hb : e < 2147483647)
    (hpp : p * (p + 1) * (2 * p + 1) ≤ 2147483647) : ∃ band : (Nat → HLC R) → Nat → Pband R,
      (∀ x j, IsProjection p x j (band x j)) ∧ Computes poscBatch o (p - 1)
        (fun x => ema (emaCoef e) (fun j => percentOf (band x j).lower (band x j).upper (x (j + (p - 1))).close)) :=
  ⟨fun x j => bandAt p (lrB (closes x) p j) x j, fun x j => bandAt_projection p hp x j,
    (posc_run o p e hcp hce hp he (toInt_sub_one hcp hp) hb hpp).congr fun x j => by
      rw [poscSeq_eq]
      congr 1
      funext j
      rw [poscRaw, poscVal_eq, regB_eq p hp]⟩
/-- Partial: whole-number options as well (`posc_stream_ne_batch`). -/
theorem posc_stream_value_partial [LawfulCeil R] [LawfulTrunc R] [LawfulRound R] (o : Nat → R) (p e : Nat) (ho : o 0 = ((p : Int) : R))
    (ho1 : o 1 = ((e : Int) : R)) (hp : 1 ≤ p) (he : 1 ≤ e) (hb : e < 2147483647)
    (hpp : p * (p + 1) * (2 * p + 1) ≤ 2147483647) : ∃ band : (Nat → HLC R) → Nat → Pband R,
      (∀ x j, IsProjection p x j (band x j)) ∧ (posc (R := R)).StreamComputes o (p - 1)
        (fun x => ema (emaCoef e) (fun j => percentOf (band x j).lower (band x j).upper (x (j + (p - 1))).close)) :=
  ⟨fun x j => bandAt p (lrB (closes x) p j) x j, fun x j => bandAt_projection p hp x j,
    StreamComputes.congr (posc_stream_run o p e ho ho1 hp he hb (bound_cast p ho (by have := regP_lt hpp; omega)) hpp) fun x j => by
      rw [poscSeq_eq]
      congr 1
      funext j
      rw [poscRaw, poscVal_eq, regB_eq p hp]⟩
/-- Partial: whole-number periods. (In floating point the reference also divides zero by zero where the other two write 0.) -/
theorem posc_ref_eq_batch_partial [LawfulCeil R] [LawfulTrunc R] [LawfulRound R] (o : Nat → R) (p e : Nat) (ho : o 0 = ((p : Int) : R))
    (hce : toInt (o 1) = .ok (e : Int)) (hp : 1 ≤ p) (he : 1 ≤ e) (hb : e < 2147483647)
    (hpp : p * (p + 1) * (2 * p + 1) ≤ 2147483647) (xs : List (HLC R)) : poscRef o xs = poscBatch o xs := by
  have hlt := regP_lt hpp
  have hcp : toInt (o 0) = .ok (p : Int) := toInt_cast' ho (by omega)
  have : Inhabited (HLC R) := ⟨⟨0, 0, 0⟩⟩
  obtain ⟨x, hx⟩ := exists_pre xs
  rw [hx, poscRef_run o p e hcp hce hp he (bound_cast p ho (by omega)) (toInt_sub_one hcp hp) (by nlinarith) x,
    ((posc_run o p e hcp hce hp he (toInt_sub_one hcp hp) hb hpp).congr fun x j => by
      rw [poscSeq_eq, show poscRaw p (regB p (regK p) (closes x)) x = fun j =>
        ((x (j + (p - 1))).close - (bandAt p (lrB (closes x) p j) x j).lower) /
        ((bandAt p (lrB (closes x) p j) x j).upper - (bandAt p (lrB (closes x) p j) x j).lower) * c! 100 from funext fun j => by
          rw [poscRaw, poscVal_eq, regB_eq p hp, percentOf]; simp, ← emaRec_eq, ← emaPer_eq]) x]

/-- The oscillator stays between 0 and 100 when every close lies between its low and high. -/
theorem posc_range_partial [LawfulTrunc R] [LawfulRound R] (o : Nat → R) (p e : Nat) (hcp : toInt (o 0) = .ok (p : Int))
    (hce : toInt (o 1) = .ok (e : Int)) (hp : 1 ≤ p) (he : 1 ≤ e) (hb : e < 2147483647)
    (hpp : p * (p + 1) * (2 * p + 1) ≤ 2147483647) (x : Nat → HLC R) (hx : ∀ i, (x i).low ≤ (x i).close ∧ (x i).close ≤ (x i).high)
    (N : Nat) : ∃ y, poscBatch o (pre x N) = .ok (.okay, pre y (N - (p - 1))) ∧ ∀ j, 0 ≤ y j ∧ y j ≤ 100 := by
  obtain ⟨band, h1, h2⟩ := posc_value_partial o p e hcp hce hp he hb hpp
  refine ⟨_, h2 x N, fun j => ?_⟩
  have hc : 0 ≤ (emaCoef e : R) ∧ (emaCoef e : R) ≤ 1 := coef_bounds (by exact_mod_cast he)
  refine ema_bounds_aux hc.1 hc.2 _ 0 100 j fun k _ => ?_
  obtain ⟨h3, h4⟩ := projection_encloses p hp x k _ (h1 x k)
  obtain ⟨h5, h6⟩ := hx (k + (p - 1))
  beta_reduce
  unfold percentOf
  generalize (band x k).upper = u at *
  generalize (band x k).lower = l at *
  generalize (x (k + (p - 1))).close = c at *
  have hd : 0 ≤ u - l := by linarith
  constructor
  · exact mul_nonneg (div_nonneg (by linarith) hd) (by norm_num)
  · have : (c - l) / (u - l) ≤ 1 := div_le_one_of_le₀ (by linarith) hd
    linarith

/-! #### rvi -/

theorem rviAt_eq (p e : Nat) (hp : 1 ≤ p) (x : Nat → R) (d : Nat → R) (hd : ∀ j, rviAbove p (regK p) x j = d j) (j : Nat) :
    rviAt p ((e : Int) + 1) (regK p) x (j + 1) =
      ⟨chosenMean (emaCoef e) (fun j => decide (0 < d j)) (fun j => d j ^ 2 / (p : R)) j,
       chosenMean (emaCoef e) (fun j => !decide (0 < d j)) (fun j => d j ^ 2 / (p : R)) j⟩ := by
  induction j with
  | zero =>
    simp only [rviAt, hd, chosenMean]
    by_cases h : 0 < d 0
    · rw [if_pos (by simpa using h)]
      simp [h, emaCoef]; ring
    · rw [if_neg (by simpa using h)]
      simp [h, emaCoef]; ring
  | succ j ih =>
    rw [rviAt, ih]
    simp only [hd, chosenMean]
    by_cases h : 0 < d (j + 1)
    · rw [if_pos (by simpa using h)]
      simp [h, emaCoef]; ring
    · rw [if_neg (by simpa using h)]
      simp [h, emaCoef]; ring

theorem rviAbove_eq (p : Nat) (hp : 1 ≤ p) (x : Nat → R) (j : Nat) (a b : R) (h : IsBestLine p x j a b) :
    rviAbove p (regK p) x j = x (j + (p - 1)) - (a + b * (p : R)) := by
  unfold rviAbove
  rw [regB_eq p hp, (regX_eq p hp).1]
  push_cast
  rcases Nat.lt_or_ge 1 p with h1 | h1
  · obtain ⟨rfl, rfl⟩ := lr_unique x p j h1 a b h
    have : lrA x p j = (lrY x p j - lrB x p j * lrX p) * (1 / (p : R)) := by unfold lrA; push_cast; rfl
    rw [this]
    ring
  · obtain rfl : p = 1 := by omega
    have h2 := h (x j) 0
    simp only [sqErr, sum_range_one] at h2
    norm_num at h2
    rw [lrY_eq x 1 j le_rfl, lrX_eq 1 le_rfl]
    simp only [sum_range_one, Nat.sub_self, Nat.add_zero]
    push_cast
    linear_combination -h2

/-- rvi: the share of upward deviations from the best line. Partial: periods that do not overflow. -/
theorem rvi_value_partial [LawfulTrunc R] [LawfulRound R] (o : Nat → R) (p e : Nat) (hce : toInt (o 0) = .ok (e : Int))
    (hcp : toInt (o 1) = .ok (p : Int)) (he : 1 ≤ e) (hp : 1 ≤ p) (hb : e < 2147483647)
    (hpp : p * (p + 1) * (2 * p + 1) ≤ 2147483647) (x : Nat → R) (a b : Nat → R) (hab : ∀ j, IsBestLine p x j (a j) (b j)) (N : Nat) :
    rviBatch o (pre x N) = .ok (.okay, pre (deviationShare p e (fun j => x (j + (p - 1)) - (a j + b j * (p : R)))) (N - (p - 1))) := by
  rw [rvi_run o p e hce hcp he hp (toInt_sub_one hcp hp) hb hpp x N]
  congr 3
  funext j
  beta_reduce
  rw [rviAt_eq p e hp x _ (fun j => rviAbove_eq p hp x j _ _ (hab j))]
  unfold rviOut deviationShare
  simp only []
  split
  · rename_i h; rw [if_pos (by simpa using h)]; simp
  · rename_i h; rw [if_neg (by simpa using h)]; simp; ring

theorem chosenMean_nonneg {w : R} (h0 : 0 ≤ w) (h1 : w ≤ 1) (sel : Nat → Bool) (v : Nat → R) (hv : ∀ j, 0 ≤ v j) (j : Nat) :
    0 ≤ chosenMean w sel v j := by
  induction j with
  | zero => rw [chosenMean]; split; exacts [mul_nonneg h0 (hv 0), le_rfl]
  | succ j ih =>
    rw [chosenMean]
    split
    · have := mul_nonneg h0 (hv (j + 1))
      have := mul_nonneg (sub_nonneg.2 h1) ih
      linarith
    · exact ih
theorem share_range (u l : R) (hu : 0 ≤ u) (hl : 0 ≤ l) :
    0 ≤ (if u = 0 then 50 else 100 * u / (u + l)) ∧ (if u = 0 then 50 else 100 * u / (u + l)) ≤ 100 := by
  split
  · norm_num
  · rename_i h
    have hu' : 0 < u := lt_of_le_of_ne hu (Ne.symm h)
    refine ⟨div_nonneg (by linarith) (by linarith), ?_⟩
    rw [div_le_iff₀ (by linarith)]
    linarith
/-- rvi lies between 0 and 100. -/
theorem rvi_range_partial [LawfulTrunc R] [LawfulRound R] (o : Nat → R) (p e : Nat) (hce : toInt (o 0) = .ok (e : Int))
    (hcp : toInt (o 1) = .ok (p : Int)) (he : 1 ≤ e) (hp : 1 ≤ p) (hb : e < 2147483647)
    (hpp : p * (p + 1) * (2 * p + 1) ≤ 2147483647) (x : Nat → R) (N : Nat) :
    ∃ y, rviBatch o (pre x N) = .ok (.okay, pre y (N - (p - 1))) ∧ ∀ j, 0 ≤ y j ∧ y j ≤ 100 := by
  choose a b hab using fun j => bestLine_exists p hp x j
  refine ⟨_, rvi_value_partial o p e hce hcp he hp hb hpp x a b hab N, fun j => ?_⟩
  have hc : 0 ≤ (emaCoef e : R) ∧ (emaCoef e : R) ≤ 1 := coef_bounds (by exact_mod_cast he)
  have hn : ∀ sel, 0 ≤ chosenMean (emaCoef e) sel (fun j => (x (j + (p - 1)) - (a j + b j * (p : R))) ^ 2 / (p : R)) j := fun sel =>
    chosenMean_nonneg hc.1 hc.2 sel _ (fun j => by positivity) j
  unfold deviationShare
  simp only []
  exact share_range _ _ (hn _) (hn _)
/-- With a period of one bar the line passes through it: rvi is 50 throughout. -/
theorem rvi_period_one [LawfulTrunc R] [LawfulRound R] (o : Nat → R) (e : Nat) (hce : toInt (o 0) = .ok (e : Int))
    (hcp : toInt (o 1) = .ok 1) (he : 1 ≤ e) (hb : e < 2147483647) (x : Nat → R) (N : Nat) :
    rviBatch o (pre x N) = .ok (.okay, pre (fun _ => 50) N) := by
  have hab : ∀ j, IsBestLine 1 x j (x j) 0 := by
    intro j a' b'
    simp only [sqErr, sum_range_one]
    norm_num
    positivity
  rw [rvi_value_partial o 1 e hce (by exact_mod_cast hcp) he le_rfl hb (by norm_num) x x (fun _ => 0) hab N]
  congr 3
  funext j
  have hz : ∀ (sel : Nat → Bool) j, chosenMean (emaCoef e : R) sel (fun j => (x (j + (1 - 1)) - (x j + 0 * ((1 : Nat) : R))) ^ 2 / ((1 : Nat) : R)) j = 0 := by
    intro sel j
    induction j with
    | zero => rw [chosenMean]; split <;> simp
    | succ j ih => rw [chosenMean, ih]; split <;> simp
  unfold deviationShare
  simp only [hz, if_true]
end Field

/-! ### Witnesses -/

/-- posc with the largest EMA period: `1 + ema_period` is not an `int`. -/
theorem posc_ema_overflow : poscBatch (opts [1, 2147483647]) [⟨3, 1, 2⟩, ⟨3, 1, (2 : Rat)⟩] = .error .intRange := by decide +kernel
/-- With a fractional period the reference of pbands reads before the input. -/
theorem pbands_ref_fractional_violates : pbandsRef (opts [5/2]) [⟨3, 1, 2⟩, ⟨3, 1, 2⟩, ⟨3, 1, (2 : Rat)⟩] = .error .oobRead := by
  decide +kernel
/-- With a fractional period the reference of posc reads before the input. -/
theorem posc_ref_fractional_violates : poscRef (opts [5/2, 2]) [⟨3, 1, 2⟩, ⟨3, 1, 2⟩, ⟨3, 1, (2 : Rat)⟩] = .error .oobRead := by
  decide +kernel
/-- Fractional options: the streams keep the fraction, the batch calls drop it. -/
theorem rvi_stream_ne_batch : rviBatch (opts [2, 5/2]) [1, 2, 4, (3 : Rat)] = .ok (.okay, [50, 50, 50]) ∧
    (rvi (R := Rat)).session (opts [2, 5/2]) [[1, 2, 4, 3]] = .ok (.okay, 3, [100, 100, 100]) := by decide +kernel
/-- A fractional period: the stream of pbands keeps the fraction, the batch call drops it. -/
theorem pbands_stream_ne_batch : (pbands (R := Rat)).session (opts [5/2]) [[⟨3, 1, 2⟩, ⟨5, 2, 4⟩, ⟨4, 2, 3⟩]] = .ok (.okay, 2, [⟨2, 37/7⟩, ⟨2, 249/35⟩]) ∧
    pbandsBatch (opts [5/2]) [⟨3, 1, 2⟩, ⟨5, 2, 4⟩, ⟨4, 2, (3 : Rat)⟩] = .ok (.okay, [⟨2, 5⟩, ⟨1, 4⟩]) := by decide +kernel
/-- A fractional EMA period: the stream of posc keeps the fraction, the batch call drops it. -/
theorem posc_stream_ne_batch : poscBatch (opts [3, 5/2]) [⟨3, 1, 2⟩, ⟨5, 2, 4⟩, ⟨4, 2, 3⟩, ⟨7, 4, (6 : Rat)⟩] = .ok (.okay, [200/7, 1250/21]) ∧
    (posc (R := Rat)).session (opts [3, 5/2]) [[⟨3, 1, 2⟩, ⟨5, 2, 4⟩, ⟨4, 2, 3⟩, ⟨7, 4, 6⟩]] = .ok (.okay, 2, [200/7, 2700/49]) := by
  decide +kernel

example : toInt (opts [3, 2] 0 : Rat) = .ok ((3 : Nat) : Int) ∧ toInt (opts [3, 2] 1 : Rat) = .ok ((2 : Nat) : Int) := by decide +kernel
example : (1023 : Nat) * (1023 + 1) * (2 * 1023 + 1) ≤ 2147483647 ∧ 2147483647 < (1024 : Nat) * (1024 + 1) * (2 * 1024 + 1) := by decide
example : bound (opts [3] 0 : Rat) = .ok ((3 : Nat) : Int) := by decide +kernel
example : rviBatch (opts [2, 3]) [1, 2, 4, 3, (6 : Rat)] = .ok (.okay, [100, 10, 1225/19]) := by decide +kernel
example : (rvi (R := Rat)).session (opts [2, 3]) [[1, 2], [], [4, 3], [6]] = .ok (.okay, 3, [100, 10, 1225/19]) := by decide +kernel
example : pbandsBatch (opts [3]) [⟨3, 1, 2⟩, ⟨5, 2, 4⟩, ⟨4, 2, 3⟩, ⟨7, 4, (6 : Rat)⟩] = .ok (.okay, [⟨2, 11/2⟩, ⟨3, 7⟩]) := by decide +kernel
example : (pbands (R := Rat)).session (opts [3]) [[⟨3, 1, 2⟩], [⟨5, 2, 4⟩, ⟨4, 2, 3⟩, ⟨7, 4, 6⟩]] = .ok (.okay, 2, [⟨2, 11/2⟩, ⟨3, 7⟩]) := by
  decide +kernel
example : poscRef (opts [3, 2]) [⟨3, 1, 2⟩, ⟨5, 2, 4⟩, ⟨4, 2, 3⟩, ⟨7, 4, (6 : Rat)⟩] = .ok (.okay, [200/7, 1250/21]) := by decide +kernel
/-- Rows whose close lies between low and high. -/
example : ∀ i : Nat, ((fun i => ⟨(i : Rat) + 2, i, i + 1⟩ : Nat → HLC Rat) i).low ≤ ((fun i => ⟨(i : Rat) + 2, i, i + 1⟩ : Nat → HLC Rat) i).close ∧
    ((fun i => ⟨(i : Rat) + 2, i, i + 1⟩ : Nat → HLC Rat) i).close ≤ ((fun i => ⟨(i : Rat) + 2, i, i + 1⟩ : Nat → HLC Rat) i).high := by
  intro i; constructor <;> simp

end Verif
