/- C79: the market turned upside down. -/
import Verif.Props.UnitsLimits
import Verif.Proof.Mirror

namespace Verif
open Spec Finset
open Spec (ema wilder)
open Units Mirror
set_option linter.unusedSectionVars false

section
variable {R : Type} [Field R] [LinearOrder R] [IsStrictOrderedRing R] [CMath R]

/-! ### Averages, bands and channels: prices -/

theorem sma_mirror (o : Nat → R) (p : Nat) (hc : toInt (o 0) = .ok (p : Int)) (hp : 1 ≤ p) :
    MirrorsPrice smaBatch o :=
  fun _ => ofVal (sma_value o p hc hp) fun _ j => winMean_m (fun _ => rfl) hp j

theorem ema_mirror (o : Nat → R) (p : Nat) (hc : toInt (o 0) = .ok (p : Int)) (hp : 1 ≤ p) :
    MirrorsPrice emaBatch o :=
  fun _ => ofVal (ema_value o p hc hp) fun _ j => ema_m (fun _ => rfl) j

theorem wilders_mirror (o : Nat → R) (p : Nat) (hc : toInt (o 0) = .ok (p : Int)) (hp : 1 ≤ p) :
    MirrorsPrice wildersBatch o :=
  fun _ => ofVal (wilders_value o p hc hp) fun _ j => wilder_m (fun _ => rfl) hp j

/-- The maximum of a falling market is the minimum of a rising one, and the other way round. -/
theorem max_mirror (o : Nat → R) (p : Nat) (hc : toInt (o 0) = .ok (p : Int)) (hp : 1 ≤ p) : MirrorsInto maxBatch minBatch o := fun a xs => by
  obtain ⟨x, e⟩ := exists_pre xs
  refine ⟨_, by rw [e]; exact max_value o p hc hp x _, ?_⟩
  have := min_value o p hc hp (fun i => mirror (fun v => a - v) (x i)) xs.length
  rw [funext (winMin_m (a := a) (x := x) (x' := fun i => mirror (fun v => a - v) (x i)) (fun _ => rfl) p)] at this
  rw [e]; simpa [pre, Function.comp_def, mirror] using this
theorem min_mirror (o : Nat → R) (p : Nat) (hc : toInt (o 0) = .ok (p : Int)) (hp : 1 ≤ p) : MirrorsInto minBatch maxBatch o := fun a xs => by
  obtain ⟨x, e⟩ := exists_pre xs
  refine ⟨_, by rw [e]; exact min_value o p hc hp x _, ?_⟩
  have := max_value o p hc hp (fun i => mirror (fun v => a - v) (x i)) xs.length
  rw [funext (winMax_m (a := a) (x := x) (x' := fun i => mirror (fun v => a - v) (x i)) (fun _ => rfl) p)] at this
  rw [e]; simpa [pre, Function.comp_def, mirror] using this

theorem lag_mirror (o : Nat → R) (p : Nat) (hc : toInt (o 0) = .ok (p : Int)) :
    MirrorsPrice lagBatch o :=
  fun _ => ofVal (lag_value o p hc) fun _ _ => rfl

theorem avgprice_mirror (o : Nat → R) :
    MirrorsPrice avgpriceBatch o :=
  fun _ => ofVal (avgprice_value o) fun _ _ => by simp only [mirror]; ring

theorem medprice_mirror (o : Nat → R) :
    MirrorsPrice medpriceBatch o :=
  fun _ => ofVal (medprice_value o) fun _ _ => by simp only [mirror]; ring

theorem typprice_mirror (o : Nat → R) :
    MirrorsPrice typpriceBatch o :=
  fun _ => ofVal (typprice_value o) fun _ _ => by simp only [mirror]; ring

theorem wcprice_mirror (o : Nat → R) :
    MirrorsPrice wcpriceBatch o :=
  fun _ => ofVal (wcprice_value o) fun _ _ => by simp only [mirror]; ring

/-- Partial: the start index is computed without overflow. -/
theorem dema_mirror_partial (o : Nat → R) (p : Nat) (hc : toInt (o 0) = .ok (p : Int)) (hp : 1 ≤ p) (hb : (p - 1) * 2 ≤ 2147483647) :
    MirrorsPrice demaBatch o :=
  fun a => ofVal (dema_value_partial o p hc hp hb) fun x j => by
    have e := ema_m (a := a) (k := emaCoef p) (x := x) (x' := fun i => a - x i) fun _ => rfl
    have e2 := ema_m (a := a) (k := emaCoef p) (x := shift (p - 1) (ema (emaCoef p) x)) (x' := shift (p - 1) (ema (emaCoef p) fun i => a - x i)) fun i => e _
    simp only [mirror, e, e2]; ring

/-- Partial: the start index is computed without overflow. -/
theorem tema_mirror_partial (o : Nat → R) (p : Nat) (hc : toInt (o 0) = .ok (p : Int)) (hp : 1 ≤ p) (hb : (p - 1) * 3 ≤ 2147483647) :
    MirrorsPrice temaBatch o :=
  fun a => ofVal (tema_value_partial o p hc hp hb) fun x j => by
    have e := ema_m (a := a) (k := emaCoef p) (x := x) (x' := fun i => a - x i) fun _ => rfl
    have e2 := ema_m (a := a) (k := emaCoef p) (x := shift (p - 1) (ema (emaCoef p) x)) (x' := shift (p - 1) (ema (emaCoef p) fun i => a - x i)) fun i => e _
    have e3 := ema_m (a := a) (k := emaCoef p) (x := shift (p - 1) (ema (emaCoef p) (shift (p - 1) (ema (emaCoef p) x))))
      (x' := shift (p - 1) (ema (emaCoef p) (shift (p - 1) (ema (emaCoef p) fun i => a - x i)))) fun i => e2 _
    simp only [mirror, e, e2, e3]; ring

/-- Partial: periods 1 and 2 are out of bounds. -/
theorem zlema_mirror_partial (o : Nat → R) (p : Nat) (hc : toInt (o 0) = .ok (p : Int)) (hp : 3 ≤ p) :
    MirrorsPrice zlemaBatch o :=
  fun a => ofVal (zlema_value_partial o p hc hp) fun x j => by
    refine ema_m (fun i => ?_) j
    simp only [mirror]
    split
    · rfl
    · ring

/-- Partial: the weight total does not overflow. -/
theorem wma_mirror_partial (o : Nat → R) (p : Nat) (hc : toInt (o 0) = .ok (p : Int)) (hp : 1 ≤ p) (hb : p * (p + 1) ≤ 2147483647) :
    MirrorsPrice wmaBatch o :=
  fun a => ofVal (wma_value_partial o p hc hp hb) fun x j => wma_m (x := x) (fun _ => rfl) hp j

/-- Partial: the weight total does not overflow. -/
theorem trima_mirror_partial (o : Nat → R) (p : Nat) (hc : toInt (o 0) = .ok (p : Int)) (hp : 1 ≤ p) (hb : ((p / 2 : Nat) + 1) * ((p / 2 : Nat) + 1) ≤ 2147483647) :
    MirrorsPrice trimaBatch o :=
  fun a => ofVal (trima_value_partial o p hc hp hb) fun x j => trima_m (fun _ => rfl) hp j

/-- Partial: the weight totals do not overflow. -/
theorem hma_mirror_partial (o : Nat → R) (p s : Nat) (hc : toInt (o 0) = .ok (p : Int)) (hs : toInt (CMath.sqrt ((p : Int) : R)) = .ok (s : Int)) (hp : 2 ≤ p) (hs1 : 1 ≤ s) (hsp : s ≤ p) (hb : p * (p + 1) ≤ 2147483647) :
    MirrorsPrice hmaBatch o :=
  fun a => ofVal (hma_value_partial o p s hc hs hp hs1 hsp hb) fun x j => wma_m (fun m => by
    simp only [mirror]
    rw [wma_m (x := x) (a := a) (fun _ => rfl) (by omega), wma_m (x := x) (a := a) (fun _ => rfl) (by omega)]; ring) hs1 j

/-- Partial: the start index is computed without overflow. -/
theorem dwma_mirror_partial [LawfulTrunc R] [LawfulRound R] (o : Nat → R) (p : Nat) (ho : o 0 = ((p : Int) : R)) (hp : 1 ≤ p) (hb : p ≤ 1073741824) :
    MirrorsPrice dwmaBatch o :=
  fun a => ofVal (dwma_value_partial o p ho hp hb) fun x j => wma_m (fun i => wma_m (fun _ => rfl) hp i) hp j

theorem lma_mirror [LawfulTrunc R] [LawfulRound R] (o : Nat → R) (p : Nat) (hc : toInt (o 0) = .ok (p : Int)) (hp : 1 ≤ p) :
    MirrorsPrice lmaBatch o :=
  fun a => ofVal (lma_value o p hc hp) fun x j => by
    simp only [mirror]
    rw [wma_m (x := x) (a := a) (fun _ => rfl) hp, winMean_m (x := x) (a := a) (fun _ => rfl) hp]; ring

/-- Partial: the weight total does not overflow. -/
theorem shmma_mirror_partial [LawfulTrunc R] [LawfulRound R] (o : Nat → R) (p : Nat) (hc : toInt (o 0) = .ok (p : Int)) (hp : 1 ≤ p) (hb : (p + 1) * p ≤ 2147483647) :
    MirrorsPrice shmmaBatch o :=
  fun a => ofVal (shmma_value_partial o p hc hp hb) fun x j => sharpMean_m (fun _ => rfl) hp j

theorem t3_mirror (o : Nat → R) (h0 : 1 ≤ o 0) (h1 : 0 ≤ o 1) :
    MirrorsPrice t3Batch o :=
  fun a => ofVal (t3_value o h0 h1) fun x j => gdema_m (fun i => gdema_m (fun i => gdema_m (fun _ => rfl) i) i) j

theorem ehma_mirror (o : Nat → R) (p : Nat) (hc : toInt (o 0) = .ok (p : Int)) (hp : 1 ≤ p) :
    MirrorsPrice ehmaBatch o :=
  fun a => ofVal (ehma_value o p hc hp) fun x j => ema_m (fun i => by
    simp only [mirror]
    rw [ema_m (x := x) (a := a) (fun _ => rfl), ema_m (x := x) (a := a) (fun _ => rfl)]; ring) j

theorem kama_mirror [LawfulAbs R] [LawfulPow R] (o : Nat → R) (p : Nat) (hc : toInt (o 0) = .ok (p : Int)) (hp : 1 ≤ p) :
    MirrorsPrice kamaBatch o :=
  fun a => ofVal (kama_value o p hc hp) fun x j => kama_m (fun _ => rfl) j

theorem hwma_mirror (o : Nat → R) (p : Nat) (hc : toInt (o 0) = .ok (p : Int)) (h7 : 7 ≤ p) (h13 : p ≤ 13) :
    MirrorsPrice hwmaBatch o :=
  fun a => ofVal (hwma_value o p hc h7 h13) fun x j => henderson_m (fun _ => rfl) h7 h13 _

theorem bbands_mirror [LawfulSqrt R] (o : Nat → R) (p : Nat) (hc : toInt (o 0) = .ok (p : Int)) (hp : 1 ≤ p) : MirrorsPrice bbandsBatch o :=
  fun a => ofVal (bbands_value o p hc hp) fun x j => by
    have e := winMean_m (x := x) (x' := fun i => a - x i) (fun _ => rfl) hp
    have e' := winVar_m (x := x) (x' := fun i => a - x i) (fun _ => rfl) hp
    simp only [mirror, e, e', Bands.mk.injEq]
    refine ⟨?_, trivial, ?_⟩ <;> ring

/-- Partial: period 1 is out of bounds. -/
theorem pc_mirror_partial [LawfulTrunc R] [LawfulRound R] (o : Nat → R) (p : Nat) (hc : toInt (o 0) = .ok (p : Int)) (hp : 2 ≤ p) :
    MirrorsPrice pcBatch o :=
  fun a => ofVal (pc_value_partial o p hc hp) fun x j => by
    simp only [mirror]
    rw [winMax_m (x := fun k => (x k).low) (a := a) fun _ => rfl, winMin_m (x := fun k => (x k).high) (a := a) fun _ => rfl]

/-- Partial: the start index is computed without overflow. -/
theorem ichi_mirror_partial [LawfulTrunc R] [LawfulRound R] (o : Nat → R) (p9 p26 p52 : Nat) (h0 : toInt (o 0) = .ok (p9 : Int)) (h1 : toInt (o 1) = .ok (p26 : Int)) (h2 : toInt (o 2) = .ok (p52 : Int)) (h9 : 1 ≤ p9) (h26 : p9 ≤ p26) (h52 : p26 ≤ p52) (hb : p52 - 1 + p26 ≤ 2147483647) (hb' : p26 + 1 ≤ 2147483647) :
    MirrorsPrice ichiBatch o :=
  fun a => ofVal (ichi_value_partial o p9 p26 p52 h0 h1 h2 h9 h26 h52 hb hb') fun x j => by
    have e (q i : Nat) := midChannel_m (a := a) x q i
    simp only [e]; simp only [mirror, Ichi.mk.injEq]
    refine ⟨trivial, trivial, ?_, trivial⟩
    ring

/-- Partial: the extreme periods. -/
theorem mhlma_mirror_partial [LawfulTrunc R] [LawfulRound R] (o : Nat → R) (p ma : Nat) (hcp : toInt (o 0) = .ok (p : Int)) (hcm : toInt (o 1) = .ok (ma : Int)) (hp : 1 ≤ p) (hma : 2 ≤ ma) (hb : ma < 2147483647) :
    MirrorsPrice mhlmaBatch o :=
  fun a => ofVal (mhlma_value_partial o p ma hcp hcm hp hma hb) fun x j => by
    have e := midRange_m (p := p) (x := x) (x' := fun i => a - x i) fun _ => rfl
    have m := winMean_m (p := ma) e (by omega)
    have s := ema_m (k := emaCoef ma) e
    simp only [mirror, m, s]

theorem kc_mirror (o : Nat → R) (h0 : 1 ≤ o 0) (h1 : 0 ≤ o 1) : MirrorsPrice kcBatch o (fun xs => ∀ r ∈ xs, r.low ≤ r.high) :=
  fun a => turnsRows (s := 0) (fun r : HLC R => r.low ≤ r.high) ⟨0, 0, 0⟩ le_rfl fun x hx N => ⟨_, _, kc_value o h0 h1 x hx N,
    kc_value o h0 h1 _ (fun n => by simp only [mirror, le_m]; exact hx n) N, fun n => by
      have e := ema_m (k := 2 / (o 0 + 1)) (x := fun k => (x k).close) (x' := fun k => a - (x k).close) fun _ => rfl
      rw [trueRange_m]
      simp only [mirror, e, Bands.mk.injEq]
      refine ⟨?_, trivial, ?_⟩ <;> ring⟩
/-- Partial: period 1 is out of bounds. -/
theorem ce_mirror_partial [LawfulTrunc R] [LawfulRound R] (o : Nat → R) (p : Nat) (hc : toInt (o 0) = .ok (p : Int)) (hp : 2 ≤ p) :
    MirrorsPrice ceBatch o (fun xs => ∀ r ∈ xs, r.low ≤ r.high) :=
  fun a => turnsRows (s := p - 1) (fun r : HLC R => r.low ≤ r.high) ⟨0, 0, 0⟩ le_rfl fun x hx N => ⟨_, _, ce_value_partial o p hc hp x hx N,
    ce_value_partial o p hc hp _ (fun n => by simp only [mirror, le_m]; exact hx n) N, fun n => by
      rw [trueRange_m]
      simp only [mirror]
      rw [winMax_m (x := fun k => (x k).low) (a := a) fun _ => rfl, winMin_m (x := fun k => (x k).high) (a := a) fun _ => rfl]
      simp only [HL.mk.injEq]
      constructor <;> ring⟩
/-- The parabolic stop, whenever the first two bars tell in which direction the market starts. -/
theorem psar_mirror_partial (o : Nat → R) (h0 : 0 < o 0) (h1 : o 0 < o 1) :
    MirrorsPrice psarBatch o (fun xs => ∀ r s t, xs = r :: s :: t → r.high + r.low ≠ s.high + s.low) := fun a => turns (s := 1) fun x N hP =>
  ⟨_, _, psar_value o h0 h1 x N, psar_value o h0 h1 _ N, fun j hj => by
    obtain ⟨n, rfl⟩ : ∃ n, N = n + 2 := ⟨N - 2, by omega⟩
    have : (x 0).high + (x 0).low ≠ (x 1).high + (x 1).low := hP (x 0) (x 1) (pre (fun i => x (i + 2)) n) (by simp [pre, List.range_succ_eq_map])
    beta_reduce
    rw [sarAt_m this]; rfl⟩

/-! ### Recursions and fits: prices -/

theorem ahma_mirror (o : Nat → R) (p : Nat) (hc : toInt (o 0) = .ok (p : Int)) (hp : 1 ≤ p) : MirrorsPrice ahmaBatch o :=
  fun a => turns (s := 0) fun x N _ => by
    obtain ⟨y, hy⟩ := ahrens_exists p hp x
    have := ahrens_aff (c := -1) (a := a) hp hy
    simp only [show ∀ v : R, -1 * v + a = a - v from fun v => by ring] at this
    exact ⟨y, _, ahma_value o p hc hp x y hy N, ahma_value o p hc hp _ _ this N, fun _ _ => rfl⟩
theorem rema_mirror (o : Nat → R) (h1 : 1 ≤ o 0) (h2 : 0 ≤ o 1) : MirrorsPrice remaBatch o := fun a => by
  obtain ⟨y, e1, e2⟩ := rema_value o h1 h2
  refine ofVal e1 fun x j => ?_
  obtain ⟨y0, y1, ys⟩ := e2 x
  obtain ⟨z0, z1, zs⟩ := e2 (fun i => mirror (fun v => a - v) (x i))
  induction j using Nat.strong_induction_on with
  | _ j ih =>
    match j with
    | 0 => rw [z0, y0]
    | 1 => rw [z1, y1, ih 0 (by omega)]; simp only [mirror]; ring
    | j + 2 =>
      rw [zs, ys, ih (j + 1) (by omega), ih j (by omega)]
      have : 1 + o 1 ≠ 0 := by positivity
      simp only [mirror]; field_simp; ring
/-- Partial: at least five values. -/
theorem gf4_mirror_partial (o : Nat → R) (q : Nat) (h1 : 1 ≤ q) (h2 : q ≤ 20) (hc : toInt (o 0) = .ok ((2 * q : Nat) : Int)) :
    MirrorsPrice gf4Batch o (fun xs => 5 ≤ xs.length) := fun a => turns (s := 0) fun x N hN => by
  obtain ⟨y, e1, e2, e3⟩ := gf4_value_partial o q h1 h2 hc
  have hN : 5 ≤ N := by simpa [pre] using hN
  refine ⟨_, _, e1 x N hN, e1 _ N hN, fun j _ => ?_⟩
  have hS : coef gf4B0 q + coef gf4A1 q + coef gf4A2 q + coef gf4A3 q + coef gf4A4 q ≠ (0 : R) := by
    have hS := rows (P := fun i => 0 < gf4B0.getD i 0 + gf4A1.getD i 0 + gf4A2.getD i 0 + gf4A3.getD i 0 + gf4A4.getD i 0) (by decide) q h1 h2
    simp only [coef_cast, ← add_div, ← Int.cast_add]
    exact div_ne_zero (Int.cast_ne_zero.2 hS.ne') million
  induction j using Nat.strong_induction_on with
  | _ j ih =>
    by_cases hj : j < 5
    · rw [e2 _ j hj, e2 _ j hj]
    · obtain ⟨n, rfl⟩ : ∃ n, j = n + 5 := ⟨j - 5, by omega⟩
      rw [e3, e3, ih (n + 4) (by omega) (by omega), ih (n + 3) (by omega) (by omega), ih (n + 2) (by omega) (by omega), ih (n + 1) (by omega) (by omega)]
      simp only [mirror]
      rw [div_eq_iff hS]
      field_simp
      ring
theorem vidya_mirror_partial [LawfulSqrt R] (o : Nat → R) (s l : Nat) (hs : toInt (o 0) = .ok (s : Int)) (hl : toInt (o 1) = .ok (l : Int))
    (h1 : 1 ≤ s) (h2 : s ≤ l) (h3 : 2 ≤ l) (ha : 0 ≤ o 2) (ha' : o 2 ≤ 1) : MirrorsPrice vidyaBatch o (fun xs => xs.length ≠ l - 1) :=
  fun a => turns fun x N hN => by
    have hN : N ≠ l - 1 := by simpa [pre] using hN
    refine ⟨_, _, vidya_value_partial o s l hs hl h1 h2 h3 ha ha' x N hN, vidya_value_partial o s l hs hl h1 h2 h3 ha ha' _ N hN, fun j _ => ?_⟩
    induction j with
    | zero => rfl
    | succ j ih =>
      rw [Spec.vidya, Spec.vidya, ih (by omega)]
      simp only [vidyaWeight, mirror]
      rw [winVar_m (x := x) (a := a) (fun _ => rfl) h1, winVar_m (x := x) (a := a) (fun _ => rfl) (by omega)]
      ring
/-- Least squares lines of the prices turned upside down. -/
theorem bestLine_m {p : Nat} {x : Nat → R} {j : Nat} {a b d : R} (h : IsBestLine p x j a b) : IsBestLine p (fun i => d - x i) j (d - a) (-b) := fun a' b' => by
  have e : ∀ a b : R, sqErr p (fun i => d - x i) j a b = sqErr p x j (d - a) (-b) := fun a b => by
    simp only [sqErr]
    exact sum_congr rfl fun k _ => by ring
  rw [e, e, sub_sub_cancel, neg_neg]
  exact h _ _
theorem line_m {p : Nat} (hp : 2 ≤ p) {A B : (Nat → R) → Nat → R} (h : ∀ x j, IsBestLine p x j (A x j) (B x j)) {d : R}
    (x : Nat → R) (j : Nat) : A (fun i => d - x i) j = d - A x j ∧ B (fun i => d - x i) j = -B x j :=
  bestLine_unique hp (h _ j) (bestLine_m (h x j))

/-- Partial: period 1 and periods whose square overflows are left out. -/
theorem linreg_mirror_partial (o : Nat → R) (p : Nat) (hc : toInt (o 0) = .ok (p : Int)) (hp : 2 ≤ p) (hpp : p * p ≤ 2147483647) :
    MirrorsPrice linregBatch o := fun a => by
  obtain ⟨A, B, h1, h2⟩ := linreg_value_partial o p hc hp hpp
  exact ofVal h2 fun x j => by
    obtain ⟨e1, e2⟩ := line_m hp h1 (d := a) x j
    simp only [mirror] at e1 e2 ⊢
    rw [e1, e2]; ring

/-- Partial: period 1 and periods whose square overflows are left out. -/
theorem linregintercept_mirror_partial (o : Nat → R) (p : Nat) (hc : toInt (o 0) = .ok (p : Int)) (hp : 2 ≤ p) (hpp : p * p ≤ 2147483647) :
    MirrorsPrice linreginterceptBatch o := fun a => by
  obtain ⟨A, B, h1, h2⟩ := linregintercept_value_partial o p hc hp hpp
  exact ofVal h2 fun x j => by
    obtain ⟨e1, e2⟩ := line_m hp h1 (d := a) x j
    simp only [mirror] at e1 e2 ⊢
    rw [e1, e2]; ring

/-- Partial: period 1 and periods whose square overflows are left out. -/
theorem tsf_mirror_partial (o : Nat → R) (p : Nat) (hc : toInt (o 0) = .ok (p : Int)) (hp : 2 ≤ p) (hpp : p * p ≤ 2147483647) :
    MirrorsPrice tsfBatch o := fun a => by
  obtain ⟨A, B, h1, h2⟩ := tsf_value_partial o p hc hp hpp
  exact ofVal h2 fun x j => by
    obtain ⟨e1, e2⟩ := line_m hp h1 (d := a) x j
    simp only [mirror] at e1 e2 ⊢
    rw [e1, e2]; ring

theorem linregslope_mirror_partial (o : Nat → R) (p : Nat) (hc : toInt (o 0) = .ok (p : Int)) (hp : 2 ≤ p) (hpp : p * p ≤ 2147483647) :
    MirrorsSign linregslopeBatch o := fun a => by
  obtain ⟨A, B, h1, h2⟩ := linregslope_value_partial o p hc hp hpp
  exact ofVal h2 fun x j => (line_m hp h1 (d := a) x j).2

/-! ### Averages that start from zero: only the sign -/

theorem gf1_mirror (o : Nat → R) (q : Nat) (h1 : 1 ≤ q) (h2 : q ≤ 20) (hc : toInt (o 0) = .ok ((2 * q : Nat) : Int)) :
    MirrorsZero gf1Batch o :=
  ofVal (gf1_value o q h1 h2 hc) fun x j => iir_neg (fun _ => rfl) j

theorem gf2_mirror (o : Nat → R) (q : Nat) (h1 : 1 ≤ q) (h2 : q ≤ 20) (hc : toInt (o 0) = .ok ((2 * q : Nat) : Int)) :
    MirrorsZero gf2Batch o :=
  ofVal (gf2_value o q h1 h2 hc) fun x j => iir_neg (fun _ => rfl) j

theorem gf3_mirror (o : Nat → R) (q : Nat) (h1 : 1 ≤ q) (h2 : q ≤ 20) (hc : toInt (o 0) = .ok ((2 * q : Nat) : Int)) :
    MirrorsZero gf3Batch o :=
  ofVal (gf3_ignores_period o q h1 h2 hc) fun x j => iir_neg (fun _ => rfl) j

theorem bf2_mirror (o : Nat → R) (h : 1 ≤ o 0) (q : Nat) (h1 : 1 ≤ q) (h2 : q ≤ 20) (hc : toInt (o 0) = .ok ((2 * q : Nat) : Int)) (s : Nat) (hs : bf2Start o = .ok (s : Int)) :
    MirrorsZero bf2Batch o :=
  ofVal (bf2_value o h q h1 h2 hc s hs) fun x j => iir_neg (fun _ => rfl) _

theorem bf3_mirror (o : Nat → R) (h : 1 ≤ o 0) (q : Nat) (h1 : 1 ≤ q) (h2 : q ≤ 20) (hc : toInt (o 0) = .ok ((2 * q : Nat) : Int)) (s : Nat) (hs : bf3Start o = .ok (s : Int)) :
    MirrorsZero bf3Batch o :=
  ofVal (bf3_value o h q h1 h2 hc s hs) fun x j => iir_neg (fun _ => rfl) _

theorem ssmooth_mirror (o : Nat → R) :
    MirrorsZero ssmoothBatch o :=
  ofVal (ssmooth_value o) fun x j => iir_neg (fun _ => rfl) j

theorem roof_mirror (o : Nat → R) :
    MirrorsZero roofBatch o :=
  ofVal (roof_value o) fun x j => iir_neg (fun i => iir_neg (fun _ => rfl) i) j

theorem lf_mirror (o : Nat → R) (h : 0 ≤ o 0) :
    MirrorsZero lfBatch o :=
  ofVal (lf_value o h) fun x j => by
    have e0 := iir_neg (b := [1 - o 0]) (k := [o 0]) (x := x) (x' := fun i => -x i) fun _ => rfl
    have e1 := iir_neg (b := [-o 0, 1]) (k := [o 0]) e0
    have e2 := iir_neg (b := [-o 0, 1]) (k := [o 0]) e1
    have e3 := iir_neg (b := [-o 0, 1]) (k := [o 0]) e2
    simp only [mirror, e0, e1, e2, e3]; ring

theorem sum_mirror (o : Nat → R) (p : Nat) (hc : toInt (o 0) = .ok (p : Int)) (hp : 1 ≤ p) :
    MirrorsZero sumBatch o :=
  ofVal (sum_value o p hc hp) fun x j => winSum_neg (fun _ => rfl) p j

theorem rmta_mirror (o : Nat → R) (p : Nat) (hc : toInt (o 0) = .ok (p : Int)) (hp : 1 ≤ p) : MirrorsZero rmtaBatch o :=
  ofVal (rmta_run o p hc hp) fun x j => by
    have : ∀ off n, rmtaSt (o 1) off (fun i => mirror (fun v : R => -v) (x i)) n = (-(rmtaSt (o 1) off x n).1, -(rmtaSt (o 1) off x n).2) := fun off n => by
      induction n with
      | zero => simp only [rmtaSt, mirror, Prod.mk.injEq]; constructor <;> ring
      | succ n ih => simp only [rmtaSt, ih]; simp only [mirror, Prod.mk.injEq]; constructor <;> ring
    exact congrArg Prod.snd (this _ _)

theorem vwma_mirror (o : Nat → R) (p : Nat) (hc : toInt (o 0) = .ok (p : Int)) (hp : 1 ≤ p) :
    MirrorsZero vwmaBatch o :=
  ofVal (vwma_value o p hc hp) fun x j => by
    have e := winSum_neg (p := p) (x := fun i => (x i).close * (x i).volume) (x' := fun i => -(x i).close * (x i).volume) fun _ => neg_mul _ _
    simp only [mirror, e, neg_eq_zero, neg_div]
    split <;> simp

/-! ### Differences, momentum and flows: the sign changes -/

theorem mom_mirror (o : Nat → R) (p : Nat) (hc : toInt (o 0) = .ok (p : Int)) (hp : 1 ≤ p) :
    MirrorsSign momBatch o :=
  fun a => ofVal (mom_value o p hc hp) fun x j => by simp only [mirror]; ring

theorem apo_mirror (o : Nat → R) (p q : Nat) (hc : toInt (o 0) = .ok (p : Int)) (hc1 : toInt (o 1) = .ok (q : Int)) (hp : 1 ≤ p) (hq : 2 ≤ q) (hpq : p ≤ q) :
    MirrorsSign apoBatch o :=
  fun a => ofVal (apo_value o p q hc hc1 hp hq hpq) fun x j => by
    simp only [mirror]
    rw [ema_m (x := x) (a := a) (fun _ => rfl), ema_m (x := x) (a := a) (fun _ => rfl)]; ring

theorem macd_mirror (o : Nat → R) (p q r : Nat) (hc : toInt (o 0) = .ok (p : Int)) (hc1 : toInt (o 1) = .ok (q : Int)) (hc2 : toInt (o 2) = .ok (r : Int)) (hp : 1 ≤ p) (hq : 2 ≤ q) (hpq : p ≤ q) (hr : 1 ≤ r) :
    MirrorsSign macdBatch o :=
  fun a => ofVal (macd_value o p q r hc hc1 hc2 hp hq hpq hr) fun x j => by
    have e (k : R) := ema_m (k := k) (x := x) (x' := fun i => a - x i) fun _ => rfl
    have e2 : ∀ i, ema (macdCoef p q).1 (fun i => a - x i) i - ema (macdCoef p q).2 (fun i => a - x i) i =
        -(ema (macdCoef p q).1 x i - ema (macdCoef p q).2 x i) := fun i => by rw [e, e]; ring
    have e3 := ema_neg (k := emaCoef r) (x' := shift (q - 1) fun i => ema (macdCoef p q).1 (fun i => a - x i) i - ema (macdCoef p q).2 (fun i => a - x i) i)
      (x := shift (q - 1) fun i => ema (macdCoef p q).1 x i - ema (macdCoef p q).2 x i) fun i => e2 _
    simp only [mirror]
    rw [e3, e2]; simp only [Macd.mk.injEq, true_and]; ring

/-- Partial: shorter periods read before the input. -/
theorem dpo_mirror_partial (o : Nat → R) (p : Nat) (hc : toInt (o 0) = .ok (p : Int)) (hp : 3 ≤ p) :
    MirrorsSign dpoBatch o :=
  fun a => ofVal (dpo_value_partial o p hc hp) fun x j => by
    simp only [mirror]
    rw [winMean_m (x := x) (a := a) (fun _ => rfl) (by omega)]; ring

theorem cmo_mirror (o : Nat → R) (p : Nat) (hc : toInt (o 0) = .ok (p : Int)) (hp : 1 ≤ p) :
    MirrorsSign cmoBatch o :=
  fun a => ofVal (cmo_value o p hc hp) fun x j => by
    simp only [mirror, gain_m (x := x) (x' := fun i => a - x i) fun _ => rfl, loss_m (x := x) (x' := fun i => a - x i) fun _ => rfl]
    rw [add_comm (winSum p (loss x) j)]
    split
    · rw [neg_zero]
    · rw [← neg_div]; congr 1; ring

theorem tsi_mirror [LawfulAbs R] (o : Nat → R) (h0 : 1 ≤ o 0) (h1 : 1 ≤ o 1) :
    MirrorsSign tsiBatch o :=
  fun a => ofVal (tsi_value o h0 h1) fun x j => by
    have e : ∀ i, priceChange (fun i => a - x i) i = -priceChange x i := fun i => by simp only [priceChange]; ring
    have s := smooth2_neg (p := o 0) (q := o 1) e
    simp only [mirror, trueStrength, s, e, abs_neg]
    split
    · rw [neg_zero]
    · ring

theorem ao_mirror (o : Nat → R) :
    MirrorsSign aoBatch o :=
  fun a => ofVal (ao_value o) fun x j => by
    have e : ∀ k, ((mirror (fun v => a - v) (x k)).high + (mirror (fun v => a - v) (x k)).low) / 2 = a - ((x k).high + (x k).low) / 2 :=
      fun k => by simp only [mirror]; ring
    have m {p : Nat} (hp : 1 ≤ p) := winMean_m (p := p) e hp
    simp only [m (show 1 ≤ 5 by omega), m (show 1 ≤ 34 by omega), sub_m]
    simp only [mirror]; ring

theorem qstick_mirror (o : Nat → R) (p : Nat) (hc : toInt (o 0) = .ok (p : Int)) (hp : 1 ≤ p) :
    MirrorsSign qstickBatch o :=
  fun a => ofVal (qstick_value o p hc hp) fun x j => winMean_neg (fun k => by simp only [mirror]; ring) p j

theorem wad_mirror (o : Nat → R) :
    MirrorsSign wadBatch o :=
  fun a => ofVal (wad_value o) fun x j => by
    simp only [wadMove_m x, sum_neg_distrib]; rfl

theorem fi_mirror (o : Nat → R) (h : 1 ≤ o 0) :
    MirrorsSign fiBatch o :=
  fun a => ofVal (fi_value o h) fun x j => ema_neg (fun k => by simp only [mirror, force]; ring) j

/-- Partial: the start index is computed without overflow. -/
theorem cci_mirror_partial [LawfulAbs R] (o : Nat → R) (p : Nat) (hc : toInt (o 0) = .ok (p : Int)) (hp : 1 ≤ p) (hb : p * 2 ≤ 2147483647) :
    MirrorsSign cciBatch o :=
  fun a => ofVal (cci_value_partial o p hc hp hb) fun x j => by
    have e : ∀ k, ((mirror (fun v => a - v) (x k)).high + (mirror (fun v => a - v) (x k)).low + (mirror (fun v => a - v) (x k)).close) / 3 =
        a - ((x k).high + (x k).low + (x k).close) / 3 := fun k => by simp only [mirror]; ring
    have m := winMean_m e hp
    have d := winMeanDev_m e hp
    simp only [m, d]
    simp only [e, sub_m]
    simp only [mirror]
    split
    · rw [neg_zero]
    · rw [← neg_div]; congr 1; ring

theorem bop_mirror (o : Nat → R) :
    MirrorsSign bopBatch o :=
  fun a => ofVal (bop_value o) fun x j => by
    simp only [mirror, lt_m, sub_m]
    split
    · rw [← neg_div]; congr 1; ring
    · rw [neg_zero]

/-- Partial: whole periods from 2 on. -/
theorem smi_mirror_partial [LawfulTrunc R] [LawfulRound R] [LawfulCeil R] (o : Nat → R) (q : Nat) (h0 : o 0 = (q : R)) (hq : 2 ≤ q) (hb : q ≤ 2147483647) (h1 : 1 ≤ o 1) (h2 : 1 ≤ o 2) :
    MirrorsSign smiBatch o :=
  fun a => ofVal (smi_value_partial o q h0 hq hb h1 h2) fun x j => by
    have e := fullRange_m (a := a) x q
    have e' := smooth2_neg (p := o 1) (q := o 2) (offMiddle_m (a := a) x q)
    simp only [stochMomentum, e', funext e]
    simp only [mirror]
    split
    · rw [neg_zero]
    · ring

theorem obv_mirror (o : Nat → R) :
    MirrorsSign obvBatch o :=
  fun a => ofVal (obv_value o) fun x j => by simp only [signedVolume_m, sum_neg_distrib]; rfl

theorem ad_mirror (o : Nat → R) :
    MirrorsSign adBatch o :=
  fun a => ofVal (ad_value o) fun x j => adLine_m x j

theorem adosc_mirror (o : Nat → R) (s p : Nat) (hs : toInt (o 0) = .ok (s : Int)) (hc : toInt (o 1) = .ok (p : Int)) (h1 : 1 ≤ s) (h2 : s ≤ p) :
    MirrorsSign adoscBatch o :=
  fun a => ofVal (adosc_value o s p hs hc h1 h2) fun x j => by
    rw [ema_neg (adLine_m (a := a) x), ema_neg (adLine_m (a := a) x)]; simp only [mirror]; ring

theorem cmf_mirror (o : Nat → R) (p : Nat) (hc : toInt (o 0) = .ok (p : Int)) (hp : 1 ≤ p) :
    MirrorsSign cmfBatch o :=
  fun a => ofVal (cmf_value o p hc hp) fun x j => by
    have d := winSum_neg (p := p) (x := fun k => closeLocation (x k) * (x k).volume)
      (x' := fun k => closeLocation (mirror (fun v => a - v) (x k)) * (mirror (fun v => a - v) (x k)).volume) fun k => by
        rw [closeLocation_m, neg_mul]; rfl
    rw [d]
    simp only [mirror, neg_eq_zero, neg_div]
    split <;> simp

theorem emv_mirror (o : Nat → R) :
    MirrorsSign emvBatch o :=
  fun a => ofVal (emv_value o) fun x j => by
    simp only [mirror, sub_m]
    rw [show (a - (x (j + 1)).low + (a - (x (j + 1)).high)) / 2 - (a - (x j).low + (a - (x j).high)) / 2 =
      -(((x (j + 1)).high + (x (j + 1)).low) / 2 - ((x j).high + (x j).low) / 2) by ring]
    simp only [neg_eq_zero, neg_div]
    split <;> simp

/-- Whenever the first two bars tell in which direction the market starts. -/
theorem kvo_mirror_partial [LawfulAbs R] (o : Nat → R) (s p : Nat) (hs : toInt (o 0) = .ok (s : Int)) (hc : toInt (o 1) = .ok (p : Int)) (h1 : 1 ≤ s) (h2 : s ≤ p) :
    MirrorsSign kvoBatch o (fun xs => ∀ r s t, xs = r :: s :: t → r.high + r.low + r.close ≠ s.high + s.low + s.close) := fun a => turns (s := 1) fun x N hP =>
  ⟨_, _, kvo_value o s p hs hc h1 h2 x N, kvo_value o s p hs hc h1 h2 _ N, fun j hj => by
    obtain ⟨n, rfl⟩ : ∃ n, N = n + 2 := ⟨N - 2, by omega⟩
    have h : hlc x 0 ≠ hlc x 1 := hP (x 0) (x 1) (pre (fun i => x (i + 2)) n) (by simp [pre, List.range_succ_eq_map])
    beta_reduce
    rw [ema_neg (klingerForce_m (a := a) x h), ema_neg (klingerForce_m (a := a) x h)]; simp only [mirror]; ring⟩

/-! ### Ranges, deviations and strength of trend: nothing changes but the sides -/

theorem md_mirror [LawfulAbs R] (o : Nat → R) (p : Nat) (hc : toInt (o 0) = .ok (p : Int)) (hp : 1 ≤ p) :
    MirrorsSides mdBatch o :=
  fun a => ofVal (md_value o p hc hp) fun x j => winMeanDev_m (fun _ => rfl) hp j

theorem var_mirror (o : Nat → R) (p : Nat) (hc : toInt (o 0) = .ok (p : Int)) (hp : 1 ≤ p) :
    MirrorsSides varBatch o :=
  fun a => ofVal (var_value o p hc hp) fun x j => winVar_m (fun _ => rfl) hp j

theorem stddev_mirror [LawfulSqrt R] (o : Nat → R) (p : Nat) (hc : toInt (o 0) = .ok (p : Int)) (hp : 1 ≤ p) :
    MirrorsSides stddevBatch o :=
  fun a => ofVal (stddev_value o p hc hp) fun x j => by simp only [mirror]; rw [winVar_m (x := x) (a := a) (fun _ => rfl) hp]

theorem stderr_mirror [LawfulSqrt R] (o : Nat → R) (p : Nat) (hc : toInt (o 0) = .ok (p : Int)) (hp : 1 ≤ p) :
    MirrorsSides stderrBatch o :=
  fun a => ofVal (stderr_value o p hc hp) fun x j => by simp only [mirror]; rw [winVar_m (x := x) (a := a) (fun _ => rfl) hp]

theorem vhf_mirror [LawfulAbs R] (o : Nat → R) (p : Nat) (hc : toInt (o 0) = .ok (p : Int)) (hp : 1 ≤ p) :
    MirrorsSides vhfBatch o :=
  fun a => ofVal (vhf_value o p hc hp) fun x j => by
    have e := winMax_m (p := p) (x := x) (x' := fun i => a - x i) fun _ => rfl
    have e' := winMin_m (p := p) (x := x) (x' := fun i => a - x i) fun _ => rfl
    simp only [mirror, e, e', sub_m, abs_sub_comm (x (_ + 1))]

theorem er_mirror [LawfulAbs R] (o : Nat → R) (p : Nat) (hc : toInt (o 0) = .ok (p : Int)) (hp : 1 ≤ p) :
    MirrorsSides erBatch o :=
  fun a => ofVal (er_value o p hc hp) fun x j => by
    simp only [mirror, efficiency, eq_m, abs_m]

theorem tr_mirror [LawfulAbs R] (o : Nat → R) :
    MirrorsSides trBatch o :=
  fun _ => ofVal (tr_value o) fun x j => congrFun (trueRange_m x) j

theorem atr_mirror [LawfulAbs R] (o : Nat → R) (p : Nat) (hc : toInt (o 0) = .ok (p : Int)) (hp : 1 ≤ p) :
    MirrorsSides atrBatch o :=
  fun _ => ofVal (atr_value o p hc hp) fun x j => by simp only [trueRange_m]; rfl

theorem dm_mirror (o : Nat → R) (p : Nat) (hc : toInt (o 0) = .ok (p : Int)) (hp : 1 ≤ p) :
    MirrorsSides dmBatch o :=
  fun a => ofVal (dm_value o p hc hp) fun x j => by
    simp only [plusDM_m, minusDM_m]; rfl

/-- Partial: the start index is computed without overflow. -/
theorem cvi_mirror_partial (o : Nat → R) (p : Nat) (hc : toInt (o 0) = .ok (p : Int)) (hp : 2 ≤ p) (hb : p * 2 ≤ 2147483647) :
    MirrorsSides cviBatch o :=
  fun a => ofVal (cvi_value_partial o p hc hp hb) fun x j => by simp only [mirror, sub_m]

/-- Partial: the start index is computed without overflow. -/
theorem mass_mirror_partial (o : Nat → R) (p : Nat) (hc : toInt (o 0) = .ok (p : Int)) (hp : 1 ≤ p) (hb : 15 + p ≤ 2147483647) :
    MirrorsSides massBatch o :=
  fun a => ofVal (mass_value_partial o p hc hp hb) fun x j => by simp only [mirror, sub_m]

theorem marketfi_mirror (o : Nat → R) :
    MirrorsSides marketfiBatch o :=
  fun a => ofVal (marketfi_value o) fun x j => by simp only [mirror, sub_m]

theorem dx_mirror [LawfulAbs R] (o : Nat → R) (p : Nat) (hc : toInt (o 0) = .ok (p : Int)) (hp : 1 ≤ p) :
    MirrorsSides dxBatch o :=
  fun a => ofVal (dx_value o p hc hp) fun x j => by
    simp only [plusDM_m, minusDM_m]
    simp only [dxOf_swap (wilderSum p (plusDM x) _)]
    rfl

/-- Partial: period 1 and overflowing start indices are left out. -/
theorem adx_mirror_partial [LawfulAbs R] (o : Nat → R) (p : Nat) (hc : toInt (o 0) = .ok (p : Int)) (hp : 2 ≤ p) (hb : (p - 1) * 2 ≤ 2147483647) :
    MirrorsSides adxBatch o :=
  fun a => ofVal (adx_value_partial o p hc hp hb) fun x j => by
    simp only [plusDM_m, minusDM_m]
    simp only [dxOf_swap (wilderSum p (plusDM x) _)]
    rfl

/-- Partial: period 1 and overflowing start indices are left out. -/
theorem adxr_mirror_partial [LawfulAbs R] (o : Nat → R) (p : Nat) (hc : toInt (o 0) = .ok (p : Int)) (hp : 2 ≤ p) (hb : (p - 1) * 3 ≤ 2147483647) :
    MirrorsSides adxrBatch o :=
  fun a => ofVal (adxr_value_partial o p hc hp hb) fun x j => by
    simp only [plusDM_m, minusDM_m]
    simp only [dxOf_swap (wilderSum p (plusDM x) _)]
    rfl

theorem di_mirror [LawfulAbs R] (o : Nat → R) (p : Nat) (hc : toInt (o 0) = .ok (p : Int)) (hp : 1 ≤ p) :
    MirrorsSides diBatch o :=
  fun a => ofVal (di_value o p hc hp) fun x j => by
    have e := plusDM_m (a := a) fun k => (⟨(x k).high, (x k).low⟩ : HL R)
    have e' := minusDM_m (a := a) fun k => (⟨(x k).high, (x k).low⟩ : HL R)
    rw [trueRange_m]
    simp only [mirror] at e e' ⊢
    simp only [e, e']

/-- Partial: inputs longer than the period. -/
theorem vi_mirror_partial [LawfulAbs R] (o : Nat → R) (p : Nat) (hc : toInt (o 0) = .ok (p : Int)) (hp : 1 ≤ p) :
    MirrorsSides viBatch o (fun xs => p < xs.length) :=
  fun a => turns fun x N hN => ⟨_, _, vi_value_partial o p hc hp x N (by simpa [pre] using hN), vi_value_partial o p hc hp _ N (by simpa [pre] using hN), fun j _ => by
    simp only [vortex, trueRange_m, vortexUp_m, vortexDown_m]; rfl⟩
/-- Partial: period 1 is left out. -/
theorem cmi_mirror_partial [LawfulTrunc R] [LawfulRound R] (o : Nat → R) (p : Nat) (hc : toInt (o 0) = .ok (p : Int)) (hp : 2 ≤ p) :
    MirrorsSides cmiBatch o (fun xs => ∀ r ∈ xs, r.low ≤ r.high) :=
  fun a => turnsRows (s := p - 1) (fun r : HLC R => r.low ≤ r.high) ⟨0, 0, 0⟩ le_rfl fun x hx N => ⟨_, _, cmi_value_partial o p hc hp x hx N,
    cmi_value_partial o p hc hp _ (fun n => by simp only [mirror, le_m]; exact hx n) N, fun n => by
      simp only [rangeShare, trueRange_m]; rfl⟩
theorem aroon_mirror (o : Nat → R) (p : Nat) (hc : toInt (o 0) = .ok (p : Int)) (hp : 1 ≤ p) : MirrorsSides aroonBatch o :=
  fun a => turns fun x N _ => by
    obtain ⟨y, h1, h2⟩ := aroon_value o p hc hp x N
    obtain ⟨z, h3, h4⟩ := aroon_value o p hc hp (fun i => mirror (fun v => a - v) (x i)) N
    refine ⟨y, z, h1, h3, fun j _ => ?_⟩
    obtain ⟨kl, kh, l1, l2, e⟩ := h2 j
    obtain ⟨kl', kh', l3, l4, e'⟩ := h4 j
    simp only [mirror, lastMin_m, lastMax_m] at l3 l4
    rw [e, e', lastMin_unique l1 l4, lastMax_unique l2 l3]; rfl
theorem aroonosc_mirror (o : Nat → R) (p : Nat) (hc : toInt (o 0) = .ok (p : Int)) (hp : 1 ≤ p) : MirrorsSign aroonoscBatch o :=
  fun a => turns fun x N _ => by
    obtain ⟨y, z, h1, h2, h3⟩ := aroonosc_value o p hc hp x N
    obtain ⟨y', z', h1', h2', h3'⟩ := aroonosc_value o p hc hp (fun i => mirror (fun v => a - v) (x i)) N
    obtain ⟨out, e1, e2⟩ := aroon_mirror o p hc hp a (pre x N) trivial
    refine ⟨z, z', h2, h2', fun j hj => ?_⟩
    rw [h1] at e1
    have e3 : (pre x N).map (mirror fun v => a - v) = pre (fun i => mirror (fun v => a - v) (x i)) N := by simp [pre, Function.comp_def]
    simp only [Except.ok.injEq, Prod.mk.injEq, true_and] at e1
    rw [e3, h1', ← e1] at e2
    simp only [Except.ok.injEq, Prod.mk.injEq, true_and] at e2
    have e4 : (pre y (N - p)).map (mirror fun w : R => w) = pre (fun i => mirror (fun w : R => w) (y i)) (N - p) := by simp [pre, Function.comp_def]
    have := pre_eq_at (e2.trans e4) hj
    rw [h3, h3', this]; simp only [mirror]; ring
/-- Whether one line crosses above the other, and whether they cross. -/
theorem crossover_mirror (o : Nat → R) : MirrorsSides crossoverBatch o := fun a => ofVal (crossover_value o) fun x j => by simp only [mirror, lt_m]
theorem crossany_mirror (o : Nat → R) : MirrorsSides crossanyBatch o := fun a => ofVal (crossany_value o) fun x j => by simp only [mirror, lt_m]

/-! ### Oscillators: turned around their middle -/

/-- Partial: every bar has a range; `stoch_mirror_violates` shows why. -/
theorem stoch_mirror_partial (o : Nat → R) (kp ks dp : Nat) (h0 : toInt (o 0) = .ok (kp : Int)) (h1 : toInt (o 1) = .ok (ks : Int)) (h2 : toInt (o 2) = .ok (dp : Int))
    (p0 : 1 ≤ kp) (p1 : 1 ≤ ks) (p2 : 1 ≤ dp) (hb : kp + ks + dp ≤ 2147483647) : MirrorsAround 50 stochBatch o (fun xs => ∀ r ∈ xs, r.low < r.high) :=
  fun a => turnsRows (s := kp - 1 + (ks - 1) + (dp - 1)) (fun r : HLC R => r.low < r.high) ⟨1, 0, 0⟩ one_pos fun x hx N =>
    ⟨_, _, stoch_value_partial o kp ks dp h0 h1 h2 p0 p1 p2 hb x N, stoch_value_partial o kp ks dp h0 h1 h2 p0 p1 p2 hb _ N, fun j => by
      have e := winMean_m (a := 100) (fastK_m (a := a) x hx kp) p1
      have e2 := winMean_m e p2
      have h : (50 : R) + 50 = 100 := by norm_num
      simp only [e, e2]; simp only [mirror, h]⟩
theorem willr_mirror_partial (o : Nat → R) (p : Nat) (hc : toInt (o 0) = .ok (p : Int)) (hp : 1 ≤ p) :
    MirrorsAround (-50) willrBatch o (fun xs => ∀ r ∈ xs, r.low < r.high) :=
  fun a => turnsRows (s := p - 1) (fun r : HLC R => r.low < r.high) ⟨1, 0, 0⟩ one_pos fun x hx N =>
    ⟨_, _, willr_value o p hc hp x N, willr_value o p hc hp _ N, fun j => by
      have e := winMax_m (p := p) (x := fun k => (x k).low) (x' := fun k => a - (x k).low) fun _ => rfl
      have e' := winMin_m (p := p) (x := fun k => (x k).high) (x' := fun k => a - (x k).high) fun _ => rfl
      have h := (sub_pos.2 (winMin_lt_winMax x hx p j)).ne'
      simp only [mirror, e, e', sub_m, if_neg h]
      field_simp; ring⟩
theorem ultosc_mirror_partial (o : Nat → R) (s m l : Nat) (hs : toInt (o 0) = .ok (s : Int)) (hm : toInt (o 1) = .ok (m : Int)) (hl : toInt (o 2) = .ok (l : Int))
    (h1 : 1 ≤ s) (h2 : s ≤ m) (h3 : m < l) : MirrorsAround 50 ultoscBatch o (fun xs => ∀ r ∈ xs, r.low < r.high) :=
  fun a => turnsRows (s := l) (fun r : HLC R => r.low < r.high) ⟨1, 0, 0⟩ one_pos fun x hx N =>
    ⟨_, _, ultosc_value_partial o s m l hs hm hl h1 h2 h3 x N, ultosc_value_partial o s m l hs hm hl h1 h2 h3 _ N, fun j => by
      simp only [pressureRatio_m (a := a) x hx h1, pressureRatio_m (a := a) x hx (h1.trans h2), pressureRatio_m (a := a) x hx (h1.trans (h2.trans h3.le))]
      simp only [mirror]; ring⟩
theorem shares_m {u d : R} (h : u + d ≠ 0) : (if d = 0 then 0 else 100 * (d / (d + u))) = 50 + 50 - (if u = 0 then 0 else 100 * (u / (u + d))) := by
  rw [add_comm d u]
  by_cases hd : d = 0
  · rw [if_pos hd]
    rw [hd, add_zero] at h
    rw [if_neg h, hd, add_zero, div_self h]; norm_num
  · rw [if_neg hd]
    split
    · rename_i hu; rw [hu, zero_add, div_self hd]; norm_num
    · field_simp; ring
theorem ema_add {k : R} (x y : Nat → R) (n : Nat) : ema k (fun i => x i + y i) n = ema k x n + ema k y n := by
  induction n with
  | zero => rfl
  | succ n ih => simp only [ema] at ih ⊢; rw [ih]; ring
theorem ema_pos {k : R} (h0 : 0 ≤ k) (h1 : k ≤ 1) (x : Nat → R) (n : Nat) (h : ∀ i, i ≤ n → 0 < x i) : 0 < ema k x n := by
  induction n with
  | zero => exact h 0 le_rfl
  | succ n ih =>
    have h2 := ih fun i hi => h i (by omega)
    have h3 := h (n + 1) le_rfl
    rw [ema, show ∀ u v : R, u + k * (v - u) = (1 - k) * u + k * v from fun u v => by ring]
    rcases h0.lt_or_eq with h4 | h4
    · exact add_pos_of_nonneg_of_pos (mul_nonneg (by linarith) h2.le) (mul_pos h4 h3)
    · subst h4; simpa using h2
theorem gain_add_loss_pos {x : Nat → R} {k : Nat} (h : x k ≠ x (k + 1)) : 0 < gain x k + loss x k := by
  unfold gain loss
  rcases h.lt_or_gt with h | h
  · rw [max_eq_left (by linarith), max_eq_right (by linarith)]; linarith
  · rw [max_eq_right (by linarith), max_eq_left (by linarith)]; linarith
theorem chain_pre {x : Nat → R} {N : Nat} (h : (pre x N).IsChain (· ≠ ·)) {i : Nat} (hi : i + 1 < N) : x i ≠ x (i + 1) := by
  have := List.isChain_iff_getElem.1 h i (by simpa [pre] using hi)
  simpa [pre] using this
/-- Partial: no two consecutive prices are the same; `rsi_mirror_violates` shows why. -/
theorem rsi_mirror_partial (o : Nat → R) (p : Nat) (hc : toInt (o 0) = .ok (p : Int)) (hp : 1 ≤ p) :
    MirrorsAround 50 rsiBatch o (fun xs => xs.IsChain (· ≠ ·)) := fun a => turns fun x N hN =>
  ⟨_, _, rsi_value o p hc hp x N, rsi_value o p hc hp _ N, fun j hj => by
    simp only [mirror, gain_m (x := x) (x' := fun i => a - x i) fun _ => rfl, loss_m (x := x) (x' := fun i => a - x i) fun _ => rfl]
    refine shares_m (ne_of_gt ?_)
    have hp1 : (1 : R) ≤ p := by exact_mod_cast hp
    have hp' : (0 : R) < p := by linarith
    have hq : 1 / (p : R) ≤ 1 := (div_le_one hp').2 hp1
    have e : wilder p (gain x) j + wilder p (loss x) j = wilder p (fun k => gain x k + loss x k) j := by
      unfold wilder
      rw [← ema_add]
      refine congrFun (congrArg _ (funext fun k => ?_)) j
      split
      · simp only [winMean, winSum, sum_add_distrib, add_div]
      · rfl
    rw [e]
    refine ema_pos (by positivity) hq _ _ fun k hk => ?_
    split
    · exact div_pos (sum_pos (fun i hi => gain_add_loss_pos (chain_pre hN (by have := mem_range.1 hi; omega))) ⟨0, mem_range.2 (by omega)⟩) hp'
    · exact gain_add_loss_pos (chain_pre hN (by omega))⟩
theorem bars_spread {x : Nat → HL R} {N p : Nat} (hp : 2 ≤ p) (h : ((pre x N).map fun r => r.high + r.low).IsChain (· ≠ ·)) {k : Nat} (hk : k + (p - 1) < N) :
    winMax p (fun i => ((x i).high + (x i).low) / 2) k ≠ winMin p (fun i => ((x i).high + (x i).low) / 2) k := fun e => by
  have h1 : ∀ i, i < p → ((x (k + i)).high + (x (k + i)).low) / 2 = winMin p (fun i => ((x i).high + (x i).low) / 2) k := fun i hi =>
    le_antisymm (e ▸ le_sup' (fun i => ((x (k + i)).high + (x (k + i)).low) / 2) (mem_range.2 (show i < p - 1 + 1 by omega)))
      (inf'_le (fun i => ((x (k + i)).high + (x (k + i)).low) / 2) (mem_range.2 (by omega)))
  have h2 := (h1 0 (by omega)).trans (h1 1 (by omega)).symm
  have h3 : (pre (fun i => (x i).high + (x i).low) N).IsChain (· ≠ ·) := by simpa [pre, Function.comp_def] using h
  exact chain_pre h3 (show k + 1 < N by omega) (by linear_combination 2 * h2)
end
/-- Partial: no two consecutive midpoints are the same, and the period is at least 2 (a window of one bar is flat). -/
theorem fisher_mirror_partial (o : Nat → ℝ) (p : Nat) (hc : toInt (o 0) = .ok (p : Int)) (hp : 2 ≤ p) :
    MirrorsSign fisherBatch o (fun xs => (xs.map fun r => r.high + r.low).IsChain (· ≠ ·)) := fun a => turns fun x N hN => by
  obtain ⟨f, h1, f0, hf⟩ := fisher_value o p hc (by omega) x N
  obtain ⟨g, h2, g0, hg⟩ := fisher_value o p hc (by omega) (fun i => mirror (fun v => a - v) (x i)) N
  have e := fun j hj => fisherOsc_m (p := p) (x := fun i => ((x i).high + (x i).low) / 2)
    (a := a) (x' := fun i => ((mirror (fun v => a - v) (x i)).high + (mirror (fun v => a - v) (x i)).low) / 2) (fun i => by simp only [mirror]; ring) j
    fun k hk => bars_spread hp hN (show k + (p - 1) < N by have : j + (p - 1) < N := hj; omega)
  have : ∀ j, j ≤ N - (p - 1) → g j = -f j := fun j => by
    induction j with
    | zero => intro _; rw [f0, g0, neg_zero]
    | succ j ih =>
      intro hj
      rw [hf, hg, e j (by omega), ih (by omega)]
      have : ∀ v : ℝ, (CMath.log ((1 + -v) / (1 - -v)) : ℝ) = -CMath.log ((1 + v) / (1 - v)) := fun v => by
        show Real.log _ = -Real.log _
        rw [← Real.log_inv, inv_div, sub_neg_eq_add, ← sub_eq_add_neg]
      rw [this]; ring
  exact ⟨_, _, h1, h2, fun j hj => by simp only [this j (by omega), this (j + 1) (by omega), mirror]⟩


end Verif
