/- C77: change of units, indicators defined by a property of their output (best lines, medians, extrema, recursions). -/
import Verif.Props.UnitsBars
import Verif.Props.Regress
import Verif.Props.Hampel
import Verif.Props.Cycle
import Verif.Props.Fractal
import Verif.Props.Gain

namespace Verif
open Spec Finset
open Spec (ema)
open Units
set_option linter.unusedSectionVars false

section
variable {R : Type} [Field R] [LinearOrder R] [IsStrictOrderedRing R] [CMath R]

/-! ### Least squares lines -/

theorem sqErr_aff {c d : R} (hc : 0 < c) (p : Nat) (x : Nat → R) (j : Nat) (a b : R) :
    sqErr p (fun i => c * x i + d) j a b = c ^ 2 * sqErr p x j ((a - d) / c) (b / c) := by
  simp only [sqErr, mul_sum]
  refine sum_congr rfl fun k _ => ?_
  have := hc.ne'
  field_simp
  ring
theorem bestLine_aff {c d : R} (hc : 0 < c) {p : Nat} {x : Nat → R} {j : Nat} {a b : R} (h : IsBestLine p x j a b) :
    IsBestLine p (fun i => c * x i + d) j (c * a + d) (c * b) := fun a' b' => by
  rw [sqErr_aff hc, sqErr_aff hc, show (c * a + d - d) / c = a by field_simp; ring, show c * b / c = b by field_simp]
  exact mul_le_mul_of_nonneg_left (h _ _) (by positivity)
theorem bestLine_back {c d : R} (hc : 0 < c) {p : Nat} {x : Nat → R} {j : Nat} {a b : R} (h : IsBestLine p (fun i => c * x i + d) j a b) :
    IsBestLine p x j ((a - d) / c) (b / c) := fun a' b' => by
  have := h (c * a' + d) (c * b')
  rw [sqErr_aff hc, sqErr_aff hc, show (c * a' + d - d) / c = a' by field_simp; ring, show c * b' / c = b' by field_simp] at this
  exact le_of_mul_le_mul_left this (by positivity)

theorem bestLine_unique {p : Nat} (hp : 2 ≤ p) {x : Nat → R} {j : Nat} {a b a' b' : R} (h : IsBestLine p x j a b) (h' : IsBestLine p x j a' b') :
    a = a' ∧ b = b' := by
  obtain ⟨e1, e2⟩ := lr_unique x p j hp a b h
  obtain ⟨e3, e4⟩ := lr_unique x p j hp a' b' h'
  exact ⟨e1.trans e3.symm, e2.trans e4.symm⟩

/-- A line of best fit follows a change of units. -/
theorem line_aff {p : Nat} (hp : 2 ≤ p) {A B : (Nat → R) → Nat → R} (h : ∀ x j, IsBestLine p x j (A x j) (B x j)) {c d : R} (hc : 0 < c)
    (x : Nat → R) (j : Nat) : A (fun i => c * x i + d) j = c * A x j + d ∧ B (fun i => c * x i + d) j = c * B x j :=
  bestLine_unique hp (h _ j) (bestLine_aff hc (h x j))

/-- Partial: period 1 and periods whose square overflows are left out (in the next ones too). -/
theorem linreg_units_partial (o : Nat → R) (p : Nat) (hc : toInt (o 0) = .ok (p : Int)) (hp : 2 ≤ p) (hpp : p * p ≤ 2147483647) :
    PriceLike linregBatch o := fun c a h => by
  obtain ⟨A, B, h1, h2⟩ := linreg_value_partial o p hc hp hpp
  exact ofVal h2 fun x j => by
    obtain ⟨e1, e2⟩ := line_aff hp h1 (d := a) h x j
    simp only [prices] at e1 e2 ⊢
    rw [e1, e2]; ring
theorem linregintercept_units_partial (o : Nat → R) (p : Nat) (hc : toInt (o 0) = .ok (p : Int)) (hp : 2 ≤ p) (hpp : p * p ≤ 2147483647) :
    PriceLike linreginterceptBatch o := fun c a h => by
  obtain ⟨A, B, h1, h2⟩ := linregintercept_value_partial o p hc hp hpp
  exact ofVal h2 fun x j => by
    obtain ⟨e1, e2⟩ := line_aff hp h1 (d := a) h x j
    simp only [prices] at e1 e2 ⊢
    rw [e1, e2]; ring
theorem tsf_units_partial (o : Nat → R) (p : Nat) (hc : toInt (o 0) = .ok (p : Int)) (hp : 2 ≤ p) (hpp : p * p ≤ 2147483647) :
    PriceLike tsfBatch o := fun c a h => by
  obtain ⟨A, B, h1, h2⟩ := tsf_value_partial o p hc hp hpp
  exact ofVal h2 fun x j => by
    obtain ⟨e1, e2⟩ := line_aff hp h1 (d := a) h x j
    simp only [prices] at e1 e2 ⊢
    rw [e1, e2]; ring
theorem linregslope_units_partial (o : Nat → R) (p : Nat) (hc : toInt (o 0) = .ok (p : Int)) (hp : 2 ≤ p) (hpp : p * p ≤ 2147483647) :
    SpreadLike linregslopeBatch o := fun c a h => by
  obtain ⟨A, B, h1, h2⟩ := linregslope_value_partial o p hc hp hpp
  exact ofVal h2 fun x j => (line_aff hp h1 (d := a) h x j).2
theorem fosc_units_partial (o : Nat → R) (p : Nat) (hc : toInt (o 0) = .ok (p : Int)) (hp : 2 ≤ p) (hpp : p * p ≤ 2147483647) :
    RatioLike foscBatch o := fun c h => by
  obtain ⟨A, B, h1, h2⟩ := fosc_value_partial o p hc hp hpp
  exact ofVal h2 fun x j => by
    obtain ⟨e1, e2⟩ := line_aff hp h1 (d := 0) h x j
    simp only [prices, add_zero] at e1 e2 ⊢
    rw [e1, e2, mul_assoc, ← mul_add, ← mul_sub, mul_left_comm, quot h]; rfl

theorem chosenMean_mul {w s : R} {sel : Nat → Bool} {v : Nat → R} (j : Nat) : chosenMean w sel (fun j => s * v j) j = s * chosenMean w sel v j := by
  induction j with
  | zero => simp only [chosenMean]; split <;> ring
  | succ j ih => simp only [chosenMean, ih]; split <;> ring
/-- Partial: periods for which a product of three factors overflows are left out. -/
theorem rvi_units_partial [LawfulTrunc R] [LawfulRound R] (o : Nat → R) (p e : Nat) (hce : toInt (o 0) = .ok (e : Int))
    (hcp : toInt (o 1) = .ok (p : Int)) (he : 1 ≤ e) (hp : 1 ≤ p) (hb : e < 2147483647) (hpp : p * (p + 1) * (2 * p + 1) ≤ 2147483647) :
    ShapeLike rviBatch o := fun c a h => turns fun x N _ => by
  choose A B hAB using bestLine_exists p hp x
  refine ⟨_, _, rvi_value_partial o p e hce hcp he hp hb hpp x A B hAB N,
    rvi_value_partial o p e hce hcp he hp hb hpp _ _ _ (fun j => bestLine_aff (d := a) h (hAB j)) N, fun j _ => ?_⟩
  simp only [id]
  rw [show (fun j => c * x (j + (p - 1)) + a - (c * A j + a + c * B j * (p : R))) =
    fun j => c * (x (j + (p - 1)) - (A j + B j * (p : R))) from funext fun j => by ring]
  have h2 : 0 < c ^ 2 := by positivity
  simp only [deviationShare, mul_pos_iff_of_pos_left h]
  simp only [mul_pow, mul_div_assoc (c ^ 2), chosenMean_mul]
  simp only [← mul_add, zero_mul_iff h2, mul_left_comm (100 : R) (c ^ 2), quot h2]

/-! ### Projection bands -/

theorem projection_unique {p : Nat} (hp : 1 ≤ p) {x : Nat → HLC R} {j : Nat} {y z : Pband R} (hy : IsProjection p x j y) (hz : IsProjection p x j z) : y = z := by
  obtain ⟨a, b, h⟩ := bestLine_exists p hp (fun i => (x i).close) j
  obtain ⟨h1, h2⟩ := hy a b h
  obtain ⟨h3, h4⟩ := hz a b h
  cases y; cases z
  simp only [Pband.mk.injEq]
  exact ⟨h2.unique h4, h1.unique h3⟩
theorem projections_aff {c a : R} (p : Nat) (f : Nat → R) (b : R) (t : Nat) {y : R} :
    c * y + a ∈ projections p (fun i => c * f i + a) (c * b) t ↔ ∃ k, k < p ∧ c * y = c * (f (t - k) + (k : R) * b) := by
  simp only [projections, Set.mem_setOf_eq]
  refine exists_congr fun k => and_congr_right fun _ => ⟨fun h => by linear_combination h, fun h => by linear_combination h⟩
theorem projection_aff {c a : R} (hc : 0 < c) {p : Nat} {x : Nat → HLC R} {j : Nat} {y : Pband R} (h : IsProjection p x j y) :
    IsProjection p (fun i => prices (fun v => c * v + a) (x i)) j (prices (fun v => c * v + a) y) := fun A B hAB => by
  obtain ⟨⟨u1, u2⟩, l1, l2⟩ := h _ _ (bestLine_back (d := a) hc hAB)
  have hB : B = c * (B / c) := by field_simp
  refine ⟨⟨?_, fun v hv => ?_⟩, ?_, fun v hv => ?_⟩
  · obtain ⟨k, hk, e⟩ := u1
    exact ⟨k, hk, by simp only [prices]; rw [e, hB]; field_simp; ring⟩
  · obtain ⟨k, hk, rfl⟩ := hv
    have := u2 ⟨k, hk, rfl⟩
    simp only [prices]
    rw [hB, show c * (x (j + (p - 1) - k)).high + a + (k : R) * (c * (B / c)) = c * ((x (j + (p - 1) - k)).high + (k : R) * (B / c)) + a by ring, le_aff hc]
    exact this
  · obtain ⟨k, hk, e⟩ := l1
    exact ⟨k, hk, by simp only [prices]; rw [e, hB]; field_simp; ring⟩
  · obtain ⟨k, hk, rfl⟩ := hv
    have := l2 ⟨k, hk, rfl⟩
    simp only [prices]
    rw [hB, show c * (x (j + (p - 1) - k)).low + a + (k : R) * (c * (B / c)) = c * ((x (j + (p - 1) - k)).low + (k : R) * (B / c)) + a by ring, le_aff hc]
    exact this
/-- Partial: periods for which a product of three factors overflows are left out. -/
theorem pbands_units_partial [LawfulTrunc R] [LawfulRound R] (o : Nat → R) (p : Nat) (hcp : toInt (o 0) = .ok (p : Int)) (hp : 1 ≤ p)
    (hpp : p * (p + 1) * (2 * p + 1) ≤ 2147483647) : PriceLike pbandsBatch o := fun c a h => by
  obtain ⟨band, h1, h2⟩ := pbands_value_partial o p hcp hp hpp
  exact ofVal h2 fun x j => projection_unique hp (h1 _ j) (projection_aff h (h1 x j))
/-- Partial: the same. -/
theorem posc_units_partial [LawfulTrunc R] [LawfulRound R] (o : Nat → R) (p e : Nat) (hcp : toInt (o 0) = .ok (p : Int))
    (hce : toInt (o 1) = .ok (e : Int)) (hp : 1 ≤ p) (he : 1 ≤ e) (hb : e < 2147483647)
    (hpp : p * (p + 1) * (2 * p + 1) ≤ 2147483647) : ShapeLike poscBatch o := fun c a h => by
  obtain ⟨band, h1, h2⟩ := posc_value_partial o p e hcp hce hp he hb hpp
  refine ofVal h2 fun x j => ?_
  have : ∀ j, band (fun i => prices (fun v => c * v + a) (x i)) j = prices (fun v => c * v + a) (band x j) :=
    fun j => projection_unique hp (h1 _ j) (projection_aff h (h1 x j))
  simp only [this]
  simp only [prices, percentOf, sub_aff, quot h, id]

/-! ### Medians -/

/-- Partial: periods whose window length overflows are left out (in the next ones too). -/
theorem hf_units_partial [LawfulAbs R] (o : Nat → R) (k : Nat) (hc : toInt (o 0) = .ok (k : Int)) (hk : 1 ≤ k) (hb : 2 * k + 1 ≤ 2147483647) (ht : 0 ≤ o 1) :
    PriceLike hfBatch o := fun c a h => turns fun x N _ => by
  obtain ⟨v, hv⟩ := hf_affine_partial o k hc hk hb ht c a h x
  exact ⟨v, _, (hv N).1, (hv N).2, fun _ _ => rfl⟩
theorem hampelIncl_affine [LawfulAbs R] {thr : R} {w : List R} {cand y : R} (h : HampelIncl thr w cand y) (a b : R) (ha : 0 < a) :
    HampelIncl thr (w.map fun v => a * v + b) (a * cand + b) (a * y + b) := by
  obtain ⟨m, d, h1, h2, rfl⟩ := h
  refine ⟨a * m + b, a * d, median_affine h1 a b ha, ?_, ?_⟩
  · have := median_affine h2 a 0 ha
    simp only [add_zero, List.map_map] at this ⊢
    refine (congrArg (fun l => IsMedian l (a * d)) (List.map_congr_left fun v _ => ?_)).mp this
    simp only [Function.comp_apply]
    exact (abs_sub_aff ha _ _).symm
  · simp only [abs_sub_aff ha, mul_left_comm _ a, mul_le_mul_iff_right₀ ha]
    split <;> rfl
theorem seg_aff {c a : R} {x x' : Nat → R} (h : ∀ i, x' i = c * x i + a) (t n : Nat) : seg x' t n = (seg x t n).map fun v => c * v + a := by
  simp [seg, Function.comp_def, h]
theorem hfema_units_partial [LawfulAbs R] (o : Nat → R) (p k : Nat) (h0 : toInt (o 0) = .ok (p : Int)) (h1 : toInt (o 1) = .ok (k : Int)) (hp : 1 ≤ p)
    (hk : 1 ≤ k) (hb : 2 * k + 1 ≤ 2147483647) (ht : 0 ≤ o 2) : PriceLike hfemaBatch o := fun c a h => turns fun x N _ => by
  obtain ⟨v, e1, e2⟩ := hfema_value_partial o p k h0 h1 hp hk hb ht x
  obtain ⟨v', e1', e2'⟩ := hfema_value_partial o p k h0 h1 hp hk hb ht (fun i => c * x i + a)
  refine ⟨v, v', e1 N, e1' N, fun t _ => ?_⟩
  have e := ema_aff (k := emaCoef p) (x := x) (x' := fun i => c * x i + a) fun _ => rfl
  have := e2' t
  rw [seg_aff e, e] at this
  exact hampelIncl_unique this (hampelIncl_affine (e2 t) c a h)
theorem hfsma_units_partial [LawfulAbs R] [LawfulTrunc R] [LawfulRound R] (o : Nat → R) (p k : Nat) (h0 : toInt (o 0) = .ok (p : Int)) (h1 : toInt (o 1) = .ok (k : Int)) (hp : 1 ≤ p)
    (hk : 1 ≤ k) (hb : 2 * k + 1 ≤ 2147483647) (hb2 : p - 1 + 2 * k ≤ 2147483647) (ht : 0 ≤ o 2) : PriceLike hfsmaBatch o := fun c a h => turns fun x N _ => by
  obtain ⟨v, e1, e2⟩ := hfsma_value_partial o p k h0 h1 hp hk hb hb2 ht x
  obtain ⟨v', e1', e2'⟩ := hfsma_value_partial o p k h0 h1 hp hk hb hb2 ht (fun i => c * x i + a)
  refine ⟨v, v', e1 N, e1' N, fun t _ => ?_⟩
  have e := winMean_aff (p := p) (x := x) (x' := fun i => c * x i + a) (fun _ => rfl) hp
  have := e2' t
  rw [seg_aff e, e] at this
  exact hampelIncl_unique this (hampelIncl_affine (e2 t) c a h)
theorem rmf_units [LawfulAbs R] [LawfulTrunc R] [LawfulRound R] (o : Nat → R) (k : Nat) (hc : toInt (o 1) = .ok ((2 * k + 1 : Nat) : Int)) (h0 : 1 ≤ o 0) : PriceLike rmfBatch o :=
  fun c a h => turns fun x N _ => by
    obtain ⟨v, v0, vs, hv⟩ := rmf_value o k hc h0 x _ (rmfMid_median k x) _ rfl
    obtain ⟨u, u0, us, hu⟩ := rmf_value o k hc h0 (fun i => c * x i + a) (fun t => c * rmfMid k x t + a)
      (fun t => by rw [seg_aff fun _ => rfl]; exact median_affine (rmfMid_median k x t) c a h) _ rfl
    refine ⟨v, u, hv N, hu N, fun t _ => ?_⟩
    induction t with
    | zero => rw [u0, v0]; rfl
    | succ t ih =>
      rw [us, vs, ih (by omega)]
      simp only [prices]; ring

/-! ### Recursions -/

theorem ahrens_aff {c a : R} {p : Nat} (hp : 1 ≤ p) {x y : Nat → R} (h : IsAhrens p x y) : IsAhrens p (fun i => c * x i + a) (fun i => c * y i + a) :=
  ⟨fun n hn => by simp only [h.1 n hn], fun n hn => by simp only; rw [h.2 n hn]; ring⟩
theorem ahma_units (o : Nat → R) (p : Nat) (hc : toInt (o 0) = .ok (p : Int)) (hp : 1 ≤ p) : PriceLike ahmaBatch o :=
  fun c a _ => turns (s := 0) fun x N _ => by
    obtain ⟨y, hy⟩ := ahrens_exists p hp x
    exact ⟨y, _, ahma_value o p hc hp x y hy N, ahma_value o p hc hp _ _ (ahrens_aff hp hy) N, fun _ _ => rfl⟩
theorem rema_units (o : Nat → R) (h1 : 1 ≤ o 0) (h2 : 0 ≤ o 1) : PriceLike remaBatch o := fun c a _ => by
  obtain ⟨y, e1, e2⟩ := rema_value o h1 h2
  refine ofVal e1 fun x j => ?_
  obtain ⟨y0, y1, ys⟩ := e2 x
  obtain ⟨z0, z1, zs⟩ := e2 (fun i => prices (fun v => c * v + a) (x i))
  induction j using Nat.strong_induction_on with
  | _ j ih =>
    match j with
    | 0 => rw [z0, y0]
    | 1 => rw [z1, y1, ih 0 (by omega)]; simp only [prices]; ring
    | j + 2 =>
      rw [zs, ys, ih (j + 1) (by omega), ih j (by omega)]
      have : 1 + o 1 ≠ 0 := by positivity
      simp only [prices]; field_simp; ring
/-- Partial: at least five values. -/
theorem gf4_units_partial (o : Nat → R) (q : Nat) (h1 : 1 ≤ q) (h2 : q ≤ 20) (hc : toInt (o 0) = .ok ((2 * q : Nat) : Int)) :
    PriceLike gf4Batch o (fun xs => 5 ≤ xs.length) := fun c a _ => turns (s := 0) fun x N hN => by
  obtain ⟨y, e1, e2, e3⟩ := gf4_value_partial o q h1 h2 hc
  have hN : 5 ≤ N := by simpa [pre] using hN
  refine ⟨_, _, e1 x N hN, e1 _ N hN, fun j _ => ?_⟩
  have hS : coef gf4B0 q + coef gf4A1 q + coef gf4A2 q + coef gf4A3 q + coef gf4A4 q ≠ (0 : R) := by
    have hS := rows (P := fun i => 0 < gf4B0.getD i 0 + gf4A1.getD i 0 + gf4A2.getD i 0 + gf4A3.getD i 0 + gf4A4.getD i 0) (by decide) q h1 h2
    simp only [coef_cast, ← add_div, ← Int.cast_add]
    exact div_ne_zero (Int.cast_ne_zero.2 hS.ne') million
  induction j using Nat.strong_induction_on with
  | _ j ih =>
    by_cases hj : j < 5
    · rw [e2 _ j hj, e2 _ j hj]
    · obtain ⟨n, rfl⟩ : ∃ n, j = n + 5 := ⟨j - 5, by omega⟩
      rw [e3, e3, ih (n + 4) (by omega) (by omega), ih (n + 3) (by omega) (by omega), ih (n + 2) (by omega) (by omega), ih (n + 1) (by omega) (by omega)]
      simp only [prices]
      rw [div_eq_iff hS]
      field_simp
      ring
theorem vidya_units_partial [LawfulSqrt R] (o : Nat → R) (s l : Nat) (hs : toInt (o 0) = .ok (s : Int)) (hl : toInt (o 1) = .ok (l : Int))
    (h1 : 1 ≤ s) (h2 : s ≤ l) (h3 : 2 ≤ l) (ha : 0 ≤ o 2) (ha' : o 2 ≤ 1) : PriceLike vidyaBatch o (fun xs => xs.length ≠ l - 1) :=
  fun c a h => turns fun x N hN => by
    have hN : N ≠ l - 1 := by simpa [pre] using hN
    refine ⟨_, _, vidya_value_partial o s l hs hl h1 h2 h3 ha ha' x N hN, vidya_value_partial o s l hs hl h1 h2 h3 ha ha' _ N hN, fun j _ => ?_⟩
    induction j with
    | zero => rfl
    | succ j ih =>
      rw [Spec.vidya, Spec.vidya, ih (by omega)]
      simp only [vidyaWeight, prices]
      rw [sd_aff (x := x) (a := a) h (fun _ => rfl) h1, sd_aff (x := x) (a := a) h (fun _ => rfl) (by omega), quot h]
      ring
theorem mgdyn_units (o : Nat → R) : UnitLike mgdynBatch o := fun c h => by
  obtain ⟨y, e1, e2⟩ := mgdyn_value o
  refine ofVal e1 fun x j => ?_
  induction j with
  | zero => rw [(e2 _).1, (e2 x).1]
  | succ j ih =>
    rw [(e2 _).2, (e2 x).2, ih]
    simp only [prices, quot h]; ring
theorem edecay_units (o : Nat → R) (p : Nat) (hc : toInt (o 0) = .ok (p : Int)) (hp : 1 ≤ p) : UnitLike edecayBatch o := fun c h => by
  obtain ⟨y, e1, e2⟩ := edecay_value o p hc hp
  refine ofVal e1 fun x j => ?_
  obtain ⟨b1, k, hk, b2⟩ := e2 x j
  obtain ⟨b3, k', hk', b4⟩ := e2 (fun i => prices (fun v => c * v) (x i)) j
  refine le_antisymm ?_ ?_
  · rw [b4]; simp only [prices]
    rw [mul_assoc]
    exact mul_le_mul_of_nonneg_left (b1 k' hk') h.le
  · have := b3 k hk
    simp only [prices] at this ⊢
    rw [b2, ← mul_assoc]; exact this
/-- decay moves by a fixed amount per bar: it follows the level of the input; `decay_units_violates` shows it does not follow its
unit. -/
theorem decay_units_partial (o : Nat → R) (p : Int) (hc : toInt (o 0) = .ok p) (a : R) : Turns decayBatch o (fun _ => True) (fun v => v + a) (fun w => w + a) := by
  obtain ⟨y, e1, e2⟩ := decay_value o p hc
  refine ofVal e1 fun x j => ?_
  obtain ⟨b1, k, hk, b2⟩ := e2 x j
  obtain ⟨b3, k', hk', b4⟩ := e2 (fun i => x i + a) j
  refine le_antisymm ?_ ?_
  · have := b1 k' hk'
    rw [b4]; linarith
  · have := b3 k hk
    rw [b2]; linarith
/-- Partial: inputs longer than the longest of the periods, and periods in order. -/
theorem kst_units_partial (o : Nat → R) (r1 r2 r3 r4 m1 m2 m3 m4 : Nat)
    (h1 : toInt (o 0) = .ok (r1 : Int)) (h2 : toInt (o 1) = .ok (r2 : Int)) (h3 : toInt (o 2) = .ok (r3 : Int))
    (h4 : toInt (o 3) = .ok (r4 : Int)) (h5 : toInt (o 4) = .ok (m1 : Int)) (h6 : toInt (o 5) = .ok (m2 : Int))
    (h7 : toInt (o 6) = .ok (m3 : Int)) (h8 : toInt (o 7) = .ok (m4 : Int)) (hr : r1 < r2 ∧ r2 < r3 ∧ r3 < r4)
    (hn : ∀ k, k < 8 → 1 ≤ o k) (hb : r4 < 2147483647) (hm : ∀ m ∈ [m1, m2, m3, m4], m < 2147483647) :
    RatioLike kstBatch o (fun xs => r4 < xs.length) := fun c h => turns fun x N hN => by
  have hN : r4 < N := by simpa [pre] using hN
  refine ⟨_, _, kst_value_partial o r1 r2 r3 r4 m1 m2 m3 m4 h1 h2 h3 h4 h5 h6 h7 h8 hr hn hb hm x N hN,
    kst_value_partial o r1 r2 r3 r4 m1 m2 m3 m4 h1 h2 h3 h4 h5 h6 h7 h8 hr hn hb hm _ N hN, fun j _ => ?_⟩
  have e : ∀ r, change r (fun i => prices (fun v => c * v) (x i)) = change r x := fun r => funext fun n => by
    simp only [change, prices, ← mul_sub, quot h]
  have : kst r1 r2 r3 r4 m1 m2 m3 m4 (fun i => prices (fun v => c * v) (x i)) = kst r1 r2 r3 r4 m1 m2 m3 m4 x := funext fun n => by
    simp only [kst, e]
  rw [this]; rfl
/-- Partial: whole periods. -/
theorem hurst_units_partial [LawfulTrunc R] [LawfulRound R] [LawfulCeil R] [LawfulPow R] (o : Nat → R) (p : Nat) (ho : o 0 = ((p : Int) : R)) (hp : 2 ≤ p) (hb : p ≤ 2147483647) : RatioLike hurstBatch o := fun c h =>
  ofVal (hurst_value_partial o p ho hp hb) fun x j => by
    have e : logReturn (fun i => prices (fun v => c * v) (x i)) = logReturn x := funext fun k => by
      simp only [logReturn, prices, zero_mul_iff h, quot h]
    simp only [hurstExp, e, id]

/-! ### Cycles -/

theorem homodyne_mul {turn a : R} (ha : a ≠ 0) {v : Nat → R} {s : Signals R} (h : Homodyne turn v s) :
    Homodyne turn (fun t => a * v t) ⟨fun t => a * s.detrender t, fun t => a * s.i1 t, fun t => a * s.q1 t, fun t => a * s.i2 t,
      fun t => a * s.q2 t, fun t => a ^ 2 * s.re t, fun t => a ^ 2 * s.im t, s.period, s.smoothPeriod⟩ := by
  have hm : ∀ (b : R) (g : Nat → R) t k, barsAgo (fun t => b * g t) t k = b * barsAgo g t k := by
    intro b g t k; unfold barsAgo; split <;> simp
  have hh : ∀ (b : R) (g : Nat → R) t, hilbertT (fun t => b * g t) t = b * hilbertT g t := by
    intro b g t; unfold hilbertT; simp only [hm]; ring
  constructor <;> intro t <;> simp only [hm, hh]
  · rw [h.detrender]; ring
  · rw [h.q1]; ring
  · rw [h.i1]
  · rw [h.i2]; ring
  · rw [h.q2]; ring
  · rw [h.re]; ring
  · rw [h.im]; ring
  · have e1 : a ^ 2 * s.im t ≠ 0 ∧ a ^ 2 * s.re t ≠ 0 ↔ s.im t ≠ 0 ∧ s.re t ≠ 0 := by simp [ha]
    have e2 : a ^ 2 * s.im t / (a ^ 2 * s.re t) = s.im t / s.re t := mul_div_mul_left _ _ (pow_ne_zero 2 ha)
    simp only [e1, e2]
    exact h.period t
  · exact h.smoothPeriod t
theorem hd_units (o : Nat → R) : RatioLike hdBatch o := fun c h => turns fun x N _ => by
  obtain ⟨s, hs⟩ := homodyne_exists (2 * CMath.acos (-1) : R) (fun t => weighted4 x (5 + t))
  have := homodyne_mul h.ne' hs
  rw [show (fun t => c * weighted4 x (5 + t)) = fun t => weighted4 (fun i => prices (fun v => c * v) (x i)) (5 + t) from
    funext fun t => by simp only [weighted4, prices]; ring] at this
  exact ⟨_, _, hd_value o x s hs N, hd_value o _ _ this N, fun _ _ => rfl⟩
theorem mama_units (o : Nat → R) (h0 : 0 ≤ o 0 ∧ o 0 ≤ 1) (h1 : 0 ≤ o 1 ∧ o 1 ≤ 1) : UnitLike mamaBatch o := fun c h => turns fun x N _ => by
  obtain ⟨s, ph, al, ma, fa, hs, hA, hN⟩ := mama_value o h0 h1 x
  obtain ⟨s', ph', al', ma', fa', hs', hA', hN'⟩ := mama_value o h0 h1 (fun i => prices (fun v => c * v) (x i))
  have := homodyne_mul h.ne' hs
  rw [show (fun t => c * weighted4 x (6 + t)) = fun t => weighted4 (fun i => prices (fun v => c * v) (x i)) (6 + t) from
    funext fun t => by simp only [weighted4, prices]; ring] at this
  obtain rfl := homodyne_unique hs' this
  have e1 : ph' = ph := funext fun t => by rw [hA'.phase_eq, hA.phase_eq]; simp only [zero_mul_iff h, quot h]
  have e2 : al' = al := funext fun t => by rw [hA'.alpha_eq, hA.alpha_eq, e1]
  have ago : ∀ {f g : Nat → R} (t : Nat), (∀ k, k < t → f k = c * g k) → barsAgo f t 1 = c * barsAgo g t 1 := fun t hk => by
    unfold barsAgo
    split
    · exact hk _ (by omega)
    · simp
  have e3 : ∀ t, ma' t = c * ma t := fun t => by
    induction t using Nat.strong_induction_on with
    | _ t ih => rw [hA'.mama_eq, hA.mama_eq, e2, ago t ih]; simp only [prices]; ring
  have e4 : ∀ t, fa' t = c * fa t := fun t => by
    induction t using Nat.strong_induction_on with
    | _ t ih => rw [hA'.fama_eq, hA.fama_eq, e2, ago t ih, e3]; ring
  exact ⟨_, _, hN N, hN' N, fun j _ => by simp only [prices, e3, e4]⟩

theorem highPass_aff {w c a : R} {x y : Nat → R} (h : HighPass w x y) : HighPass w (fun i => c * x i + a) (fun i => c * y i) := fun t => by
  have := h t
  simp only
  rw [this]
  split_ifs <;> ring
theorem smooths_mul {c2 c3 c : R} {x y : Nat → R} (h : Smooths c2 c3 x y) : Smooths c2 c3 (fun i => c * x i) (fun i => c * y i) := fun t => by
  have := h t
  simp only
  rw [this]
  split_ifs <;> ring
/-- Partial: the shortest and the longest period are left out. -/
theorem mesastoch_units_partial (o : Nat → R) (p m : Nat) (hcp : toInt (o 0) = .ok (p : Int)) (hcm : toInt (o 1) = .ok (m : Int)) (hp : 3 ≤ p)
    (hb : p ≤ 2147483645) (hm : 1 ≤ m) : ShapeLike mesastochBatch o := fun c a h => turns fun x N _ => by
  obtain ⟨g, f, v, h1, h2, h3, h4⟩ := mesastoch_value_partial o p m hcp hcm hp hb hm x N
  obtain ⟨g', f', v', h1', h2', h3', h4'⟩ := mesastoch_value_partial o p m hcp hcm hp hb hm (fun i => prices (fun v => c * v + a) (x i)) N
  obtain rfl := highPass_unique h1' (highPass_aff h1)
  obtain rfl := smooths_unique h2' (smooths_mul h2)
  have e : (fun j => filtStoch p (fun i => c * f i) (p + j)) = fun j => filtStoch p f (p + j) := funext fun j => by
    simp only [filtStoch, winMin_mul (x := f) (x' := fun i => c * f i) h fun _ => rfl, winMax_mul (x := f) (x' := fun i => c * f i) h fun _ => rfl,
      ← mul_sub, quot h, mul_right_inj' h.ne']
  rw [e] at h3'
  obtain rfl := smooths_unique h3' h3
  exact ⟨_, _, h4, h4', fun _ _ => rfl⟩

/-! ### Squares and square roots -/

theorem var_units (o : Nat → R) (p : Nat) (hc : toInt (o 0) = .ok (p : Int)) (hp : 1 ≤ p) (c a : R) :
    Turns varBatch o (fun _ => True) (fun v => c * v + a) (fun w => c ^ 2 * w) :=
  ofVal (var_value o p hc hp) fun x j => winVar_aff (x := x) (fun _ => rfl) hp j
/-- Partial: the longest period is left out. -/
theorem emsd_units_partial [LawfulPow R] [LawfulSqrt R] (o : Nat → R) (p m : Nat) (hc : toInt (o 0) = .ok (p : Int))
    (h1 : toInt (o 1) = .ok (m : Int)) (hp : 1 ≤ p) (hm : 1 ≤ m) (hb : m < 2147483647) : SpreadLike emsdBatch o :=
  fun _ _ h => ofVal (emsd_value_partial o p m hc h1 hp hm hb) fun x j => sd_aff (x := x) h (fun _ => rfl) hp j
end

end Verif
