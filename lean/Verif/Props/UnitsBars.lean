/- C77: change of units, indicators that take bars. -/
import Verif.Props.Units
import Verif.Proof.UnitsBars

namespace Verif
open Spec Finset
open Spec (ema)
open Units
set_option linter.unusedSectionVars false

section
variable {R : Type} [Field R] [LinearOrder R] [IsStrictOrderedRing R] [CMath R]

/-! ### Prices -/

theorem bbands_units [LawfulSqrt R] (o : Nat → R) (p : Nat) (hc : toInt (o 0) = .ok (p : Int)) (hp : 1 ≤ p) : PriceLike bbandsBatch o :=
  fun c a h => ofVal (bbands_value o p hc hp) fun x j => by
    have e := winMean_aff (x := x) (x' := fun i => c * x i + a) (fun _ => rfl) hp
    have e' := sd_aff (x := x) (x' := fun i => c * x i + a) h (fun _ => rfl) hp
    simp only [prices, e, e', Bands.mk.injEq]
    refine ⟨?_, trivial, ?_⟩ <;> ring

/-- Partial: period 1 is out of bounds. -/
theorem pc_units_partial [LawfulTrunc R] [LawfulRound R] (o : Nat → R) (p : Nat) (hc : toInt (o 0) = .ok (p : Int)) (hp : 2 ≤ p) :
    PriceLike pcBatch o :=
  fun c a h => ofVal (pc_value_partial o p hc hp) fun x j => by
    simp only [prices]
    rw [winMax_aff (x := fun k => (x k).high) (c := c) (a := a) h fun _ => rfl, winMin_aff (x := fun k => (x k).low) (c := c) (a := a) h fun _ => rfl]

/-- Partial: the start index is computed without overflow. -/
theorem ichi_units_partial [LawfulTrunc R] [LawfulRound R] (o : Nat → R) (p9 p26 p52 : Nat) (h0 : toInt (o 0) = .ok (p9 : Int)) (h1 : toInt (o 1) = .ok (p26 : Int)) (h2 : toInt (o 2) = .ok (p52 : Int)) (h9 : 1 ≤ p9) (h26 : p9 ≤ p26) (h52 : p26 ≤ p52) (hb : p52 - 1 + p26 ≤ 2147483647) (hb' : p26 + 1 ≤ 2147483647) :
    PriceLike ichiBatch o :=
  fun c a h => ofVal (ichi_value_partial o p9 p26 p52 h0 h1 h2 h9 h26 h52 hb hb') fun x j => by
    have e (q i : Nat) := midChannel_aff (c := c) (a := a) h x q i
    simp only [e]; simp only [prices, Ichi.mk.injEq]
    refine ⟨trivial, trivial, ?_, trivial⟩
    ring

/-- Partial: the extreme periods. -/
theorem mhlma_units_partial [LawfulTrunc R] [LawfulRound R] (o : Nat → R) (p ma : Nat) (hcp : toInt (o 0) = .ok (p : Int)) (hcm : toInt (o 1) = .ok (ma : Int)) (hp : 1 ≤ p) (hma : 2 ≤ ma) (hb : ma < 2147483647) :
    PriceLike mhlmaBatch o :=
  fun c a h => ofVal (mhlma_value_partial o p ma hcp hcm hp hma hb) fun x j => by
    have e := midRange_aff (p := p) (x := x) (x' := fun i => c * x i + a) h fun _ => rfl
    have m := winMean_aff (p := ma) e (by omega)
    have s := ema_aff (k := emaCoef ma) e
    simp only [prices, m, s]

theorem psar_units (o : Nat → R) (h0 : 0 < o 0) (h1 : o 0 < o 1) :
    PriceLike psarBatch o :=
  fun c a h => ofVal (psar_value o h0 h1) fun x j => by rw [sarAt_aff h]; rfl

theorem kc_units (o : Nat → R) (h0 : 1 ≤ o 0) (h1 : 0 ≤ o 1) : PriceLike kcBatch o (fun xs => ∀ r ∈ xs, r.low ≤ r.high) :=
  fun c a h => turnsRows (s := 0) (fun r : HLC R => r.low ≤ r.high) ⟨0, 0, 0⟩ le_rfl fun x hx N => ⟨_, _, kc_value o h0 h1 x hx N,
    kc_value o h0 h1 _ (fun n => by simp only [prices, le_aff h]; exact hx n) N, fun n => by
      have e := ema_aff (k := 2 / (o 0 + 1)) (x := fun k => (x k).close) (x' := fun k => c * (x k).close + a) fun _ => rfl
      have t := ema_mul (k := 2 / (o 0 + 1)) (trueRange_aff (a := a) h x)
      simp only [prices] at e t ⊢
      simp only [e, t, Bands.mk.injEq]
      refine ⟨?_, trivial, ?_⟩ <;> ring⟩

/-- Partial: period 1 is out of bounds. -/
theorem ce_units_partial [LawfulTrunc R] [LawfulRound R] (o : Nat → R) (p : Nat) (hc : toInt (o 0) = .ok (p : Int)) (hp : 2 ≤ p) :
    PriceLike ceBatch o (fun xs => ∀ r ∈ xs, r.low ≤ r.high) :=
  fun c a h => turnsRows (s := p - 1) (fun r : HLC R => r.low ≤ r.high) ⟨0, 0, 0⟩ le_rfl fun x hx N => ⟨_, _, ce_value_partial o p hc hp x hx N,
    ce_value_partial o p hc hp _ (fun n => by simp only [prices, le_aff h]; exact hx n) N, fun n => by
      have t := wilder_mul (trueRange_aff (a := a) h x) p
      simp only [prices] at t ⊢
      rw [winMax_aff (x := fun k => (x k).high) (c := c) (a := a) h fun _ => rfl, winMin_aff (x := fun k => (x k).low) (c := c) (a := a) h fun _ => rfl, t]
      simp only [HL.mk.injEq]
      constructor <;> ring⟩

theorem abands_units (o : Nat → R) (p : Nat) (hc : toInt (o 0) = .ok (p : Int)) (hp : 1 ≤ p) :
    UnitLike abandsBatch o :=
  fun c h => ofVal (abands_value o p hc hp) fun x j => by
    have e : ∀ k, widenFactor (prices (fun v => c * v) (x k)) = widenFactor (x k) := fun k => by
      simp only [prices, widenFactor, ← mul_add, ← mul_sub, mul_left_comm _ c, quot h]
      simp only [mul_pos_iff_of_pos_left h]
    have l := winMean_mul (p := p) (x := fun k => widenedLow (x k)) (x' := fun k => widenedLow (prices (fun v => c * v) (x k))) (c := c)
      fun k => by rw [widenedLow, e]; simp only [prices, widenedLow]; ring
    have u := winMean_mul (p := p) (x := fun k => widenedHigh (x k)) (x' := fun k => widenedHigh (prices (fun v => c * v) (x k))) (c := c)
      fun k => by rw [widenedHigh, e]; simp only [prices, widenedHigh]; ring
    have m := winMean_mul (p := p) (x := fun k => (x k).close) (x' := fun k => c * (x k).close) (c := c) fun k => rfl
    simp only [l, u]; simp only [prices, m]

/-! ### Differences of prices -/

theorem tr_units [LawfulAbs R] (o : Nat → R) :
    SpreadLike trBatch o :=
  fun _ _ h => ofVal (tr_value o) fun x j => trueRange_aff h x j

theorem atr_units [LawfulAbs R] (o : Nat → R) (p : Nat) (hc : toInt (o 0) = .ok (p : Int)) (hp : 1 ≤ p) :
    SpreadLike atrBatch o :=
  fun _ _ h => ofVal (atr_value o p hc hp) fun x j => wilder_mul (trueRange_aff h x) p j

theorem ao_units (o : Nat → R) :
    SpreadLike aoBatch o :=
  fun c a h => ofVal (ao_value o) fun x j => by
    have e : ∀ k, ((prices (fun v => c * v + a) (x k)).high + (prices (fun v => c * v + a) (x k)).low) / 2 = c * (((x k).high + (x k).low) / 2) + a :=
      fun k => by simp only [prices]; ring
    have m {p : Nat} (hp : 1 ≤ p) := winMean_aff (p := p) e hp
    simp only [m (show 1 ≤ 5 by omega), m (show 1 ≤ 34 by omega), sub_aff]
    rfl

theorem qstick_units (o : Nat → R) (p : Nat) (hc : toInt (o 0) = .ok (p : Int)) (hp : 1 ≤ p) :
    SpreadLike qstickBatch o :=
  fun c a h => ofVal (qstick_value o p hc hp) fun x j => winMean_mul (fun k => by simp only [prices]; ring) p j

theorem dm_units (o : Nat → R) (p : Nat) (hc : toInt (o 0) = .ok (p : Int)) (hp : 1 ≤ p) :
    SpreadLike dmBatch o :=
  fun c a h => ofVal (dm_value o p hc hp) fun x j => by
    rw [wilderSum_mul (plusDM_aff h x), wilderSum_mul (minusDM_aff h x)]; rfl

theorem wad_units (o : Nat → R) :
    SpreadLike wadBatch o :=
  fun c a h => ofVal (wad_value o) fun x j => by
    simp only [wadMove_aff h x, ← mul_sum]; rfl

theorem fi_units (o : Nat → R) (h : 1 ≤ o 0) :
    SpreadLike fiBatch o :=
  fun c a _ => ofVal (fi_value o h) fun x j => ema_mul (fun k => by simp only [prices, force]; ring) j

/-! ### Pure numbers -/

/-- Partial: the start index is computed without overflow. -/
theorem stoch_units_partial (o : Nat → R) (kp ks dp : Nat) (h0 : toInt (o 0) = .ok (kp : Int)) (h1 : toInt (o 1) = .ok (ks : Int)) (h2 : toInt (o 2) = .ok (dp : Int)) (p0 : 1 ≤ kp) (p1 : 1 ≤ ks) (p2 : 1 ≤ dp) (hb : kp + ks + dp ≤ 2147483647) :
    ShapeLike stochBatch o :=
  fun c a h => ofVal (stoch_value_partial o kp ks dp h0 h1 h2 p0 p1 p2 hb) fun x j => by
    simp only [funext (fastK_aff h x kp), id]

theorem willr_units (o : Nat → R) (p : Nat) (hc : toInt (o 0) = .ok (p : Int)) (hp : 1 ≤ p) :
    ShapeLike willrBatch o :=
  fun c a h => ofVal (willr_value o p hc hp) fun x j => by
    have e := winMax_aff (p := p) (x := fun k => (x k).high) (x' := fun k => c * (x k).high + a) h fun _ => rfl
    have e' := winMin_aff (p := p) (x := fun k => (x k).low) (x' := fun k => c * (x k).low + a) h fun _ => rfl
    simp only [prices, e, e', sub_aff, zero_mul_iff h, quot h, id]

theorem aroon_units (o : Nat → R) (p : Nat) (hc : toInt (o 0) = .ok (p : Int)) (hp : 1 ≤ p) : ShapeLike aroonBatch o :=
  fun c a h => turns fun x N _ => by
    obtain ⟨y, h1, h2⟩ := aroon_value o p hc hp x N
    obtain ⟨z, h3, h4⟩ := aroon_value o p hc hp (fun i => prices (fun v => c * v + a) (x i)) N
    refine ⟨y, z, h1, h3, fun j _ => ?_⟩
    obtain ⟨kl, kh, l1, l2, e⟩ := h2 j
    obtain ⟨kl', kh', l3, l4, e'⟩ := h4 j
    simp only [prices, lastMin_aff h, lastMax_aff h] at l3 l4
    rw [e, e', lastMin_unique l1 l3, lastMax_unique l2 l4]; rfl
theorem aroonosc_units (o : Nat → R) (p : Nat) (hc : toInt (o 0) = .ok (p : Int)) (hp : 1 ≤ p) : ShapeLike aroonoscBatch o :=
  fun c a h => turns fun x N _ => by
    obtain ⟨y, z, h1, h2, h3⟩ := aroonosc_value o p hc hp x N
    obtain ⟨y', z', h1', h2', h3'⟩ := aroonosc_value o p hc hp (fun i => prices (fun v => c * v + a) (x i)) N
    obtain ⟨out, e1, e2⟩ := aroon_units o p hc hp c a h (pre x N) trivial
    refine ⟨z, z', h2, h2', fun j hj => ?_⟩
    rw [h1] at e1
    have e3 : (pre x N).map (prices fun v => c * v + a) = pre (fun i => prices (fun v => c * v + a) (x i)) N := by simp [pre, Function.comp_def]
    rw [e3, h1', List.map_id] at e2
    simp only [Except.ok.injEq, Prod.mk.injEq, true_and] at e1 e2
    have := pre_eq_at (e2.trans e1.symm) hj
    rw [h3, h3', this]; rfl
theorem fisher_units (o : Nat → R) (p : Nat) (hc : toInt (o 0) = .ok (p : Int)) (hp : 1 ≤ p) : ShapeLike fisherBatch o :=
  fun c a h => turns fun x N _ => by
    obtain ⟨f, h1, f0, hf⟩ := fisher_value o p hc hp x N
    obtain ⟨g, h2, g0, hg⟩ := fisher_value o p hc hp (fun i => prices (fun v => c * v + a) (x i)) N
    have e := fisherOsc_aff (p := p) (x := fun i => ((x i).high + (x i).low) / 2)
      (a := a) (x' := fun i => ((prices (fun v => c * v + a) (x i)).high + (prices (fun v => c * v + a) (x i)).low) / 2) hp h (fun i => by simp only [prices]; ring)
    have : ∀ j, g j = f j := fun j => by
      induction j with
      | zero => rw [f0, g0]
      | succ j ih => rw [hf, hg, e, ih]
    exact ⟨_, _, h1, h2, fun j _ => by simp only [this, id]⟩
/-- Partial: period 1 and periods for which the start index overflows are left out. -/
theorem stochrsi_units_partial (o : Nat → R) (p : Nat) (hc : toInt (o 0) = .ok (p : Int)) (hp : 2 ≤ p) (hb : p ≤ 1073741823) : ShapeLike stochrsiBatch o :=
  fun c a h => turns fun x N _ => by
    obtain ⟨r, h1, h2⟩ := stochrsi_value_partial o p hc hp hb x N
    obtain ⟨r', h1', h2'⟩ := stochrsi_value_partial o p hc hp hb (fun i => prices (fun v => c * v + a) (x i)) N
    obtain ⟨out, e1, e2⟩ := rsi_units o p hc (by omega) c a h (pre x N) trivial
    refine ⟨_, _, h2, h2', fun j hj => ?_⟩
    rw [h1] at e1
    have e3 : (pre x N).map (prices fun v => c * v + a) = pre (fun i => prices (fun v => c * v + a) (x i)) N := by simp [pre, Function.comp_def]
    rw [e3, h1', List.map_id] at e2
    simp only [Except.ok.injEq, Prod.mk.injEq, true_and] at e1 e2
    have e : ∀ i, i < N - p → r' i = r i := fun i hi => pre_eq_at (e2.trans e1.symm) hi
    rw [winMin_congr fun k hk => e _ (by omega), winMax_congr fun k hk => e _ (by omega), e _ (by omega)]; rfl

/-- Partial: the start index is computed without overflow. -/
theorem cci_units_partial [LawfulAbs R] (o : Nat → R) (p : Nat) (hc : toInt (o 0) = .ok (p : Int)) (hp : 1 ≤ p) (hb : p * 2 ≤ 2147483647) :
    ShapeLike cciBatch o :=
  fun c a h => ofVal (cci_value_partial o p hc hp hb) fun x j => by
    have e : ∀ k, ((prices (fun v => c * v + a) (x k)).high + (prices (fun v => c * v + a) (x k)).low + (prices (fun v => c * v + a) (x k)).close) / 3 =
        c * (((x k).high + (x k).low + (x k).close) / 3) + a := fun k => by simp only [prices]; ring
    have m := winMean_aff e hp
    have d := winMeanDev_aff h e hp
    simp only [m, d]
    simp only [e, sub_aff, zero_mul_iff h, mul_left_comm _ c, quot h, id]

/-- Partial: the start index is computed without overflow. -/
theorem cvi_units_partial (o : Nat → R) (p : Nat) (hc : toInt (o 0) = .ok (p : Int)) (hp : 2 ≤ p) (hb : p * 2 ≤ 2147483647) :
    ShapeLike cviBatch o :=
  fun c a h => ofVal (cvi_value_partial o p hc hp hb) fun x j => by
    have e := ema_mul (k := emaCoef p) (x := fun k => (x k).high - (x k).low) (x' := fun k => c * (x k).high + a - (c * (x k).low + a)) fun _ => sub_aff _ _
    simp only [prices]
    rw [e, e, ← mul_sub, mul_left_comm, quot h]; rfl

/-- Partial: the start index is computed without overflow. -/
theorem mass_units_partial (o : Nat → R) (p : Nat) (hc : toInt (o 0) = .ok (p : Int)) (hp : 1 ≤ p) (hb : 15 + p ≤ 2147483647) :
    ShapeLike massBatch o :=
  fun c a h => ofVal (mass_value_partial o p hc hp hb) fun x j => by
    have e := ema_mul (k := emaCoef 9) (x := fun k => (x k).high - (x k).low) (x' := fun k => c * (x k).high + a - (c * (x k).low + a)) fun _ => sub_aff _ _
    have e2 := ema_mul (k := emaCoef 9) (x := shift 8 (ema (emaCoef 9) fun k => (x k).high - (x k).low))
      (x' := shift 8 (ema (emaCoef 9) fun k => c * (x k).high + a - (c * (x k).low + a))) fun _ => e _
    have : (fun k => ema (emaCoef 9) (fun k => c * (x k).high + a - (c * (x k).low + a)) (k + 16) /
        ema (emaCoef 9) (shift 8 (ema (emaCoef 9) fun k => c * (x k).high + a - (c * (x k).low + a))) (k + 8)) =
        fun k => ema (emaCoef 9) (fun k => (x k).high - (x k).low) (k + 16) / ema (emaCoef 9) (shift 8 (ema (emaCoef 9) fun k => (x k).high - (x k).low)) (k + 8) :=
      funext fun k => by rw [e, e2, quot h]
    simp only [prices]
    rw [this]; rfl

/-- Partial: the long period is longer than the medium one. -/
theorem ultosc_units_partial (o : Nat → R) (s m l : Nat) (hs : toInt (o 0) = .ok (s : Int)) (hm : toInt (o 1) = .ok (m : Int)) (hl : toInt (o 2) = .ok (l : Int)) (h1 : 1 ≤ s) (h2 : s ≤ m) (h3 : m < l) :
    ShapeLike ultoscBatch o :=
  fun c a h => ofVal (ultosc_value_partial o s m l hs hm hl h1 h2 h3) fun x j => by
    have e (q i : Nat) := pressureRatio_aff (c := c) (a := a) h x q i
    simp only [e, id]

theorem bop_units (o : Nat → R) :
    ShapeLike bopBatch o :=
  fun c a h => ofVal (bop_value o) fun x j => by
    simp only [prices, lt_aff h, sub_aff, quot h, id]

theorem crossover_units (o : Nat → R) :
    ShapeLike crossoverBatch o :=
  fun c a h => ofVal (crossover_value o) fun x j => by simp only [prices, lt_aff h, id]

theorem crossany_units (o : Nat → R) :
    ShapeLike crossanyBatch o :=
  fun c a h => ofVal (crossany_value o) fun x j => by simp only [prices, lt_aff h, id]

/-- Partial: whole periods from 2 on. -/
theorem smi_units_partial [LawfulTrunc R] [LawfulRound R] [LawfulCeil R] (o : Nat → R) (q : Nat) (h0 : o 0 = (q : R)) (hq : 2 ≤ q) (hb : q ≤ 2147483647) (h1 : 1 ≤ o 1) (h2 : 1 ≤ o 2) :
    ShapeLike smiBatch o :=
  fun c a h => ofVal (smi_value_partial o q h0 hq hb h1 h2) fun x j => by
    have e := smooth2_mul (p := o 1) (q := o 2) (fullRange_aff (c := c) (a := a) h x q)
    have e' := smooth2_mul (p := o 1) (q := o 2) (offMiddle_aff (c := c) (a := a) h x q)
    simp only [stochMomentum, e, e', zero_mul_iff h, id]
    rw [mul_div_assoc c (smooth2 (o 1) (o 2) (fullRange q x) j), quot h]

theorem dx_units [LawfulAbs R] (o : Nat → R) (p : Nat) (hc : toInt (o 0) = .ok (p : Int)) (hp : 1 ≤ p) :
    ShapeLike dxBatch o :=
  fun c a h => ofVal (dx_value o p hc hp) fun x j => by
    simp only [wilderSum_mul (plusDM_aff (a := a) h x), wilderSum_mul (minusDM_aff (a := a) h x), dxOf_mul h, id]

/-- Partial: period 1 and overflowing start indices are left out. -/
theorem adx_units_partial [LawfulAbs R] (o : Nat → R) (p : Nat) (hc : toInt (o 0) = .ok (p : Int)) (hp : 2 ≤ p) (hb : (p - 1) * 2 ≤ 2147483647) :
    ShapeLike adxBatch o :=
  fun c a h => ofVal (adx_value_partial o p hc hp hb) fun x j => by
    simp only [wilderSum_mul (plusDM_aff (a := a) h x), wilderSum_mul (minusDM_aff (a := a) h x), dxOf_mul h, id]

/-- Partial: period 1 and overflowing start indices are left out. -/
theorem adxr_units_partial [LawfulAbs R] (o : Nat → R) (p : Nat) (hc : toInt (o 0) = .ok (p : Int)) (hp : 2 ≤ p) (hb : (p - 1) * 3 ≤ 2147483647) :
    ShapeLike adxrBatch o :=
  fun c a h => ofVal (adxr_value_partial o p hc hp hb) fun x j => by
    simp only [wilderSum_mul (plusDM_aff (a := a) h x), wilderSum_mul (minusDM_aff (a := a) h x), dxOf_mul h, id]

theorem di_units [LawfulAbs R] (o : Nat → R) (p : Nat) (hc : toInt (o 0) = .ok (p : Int)) (hp : 1 ≤ p) :
    ShapeLike diBatch o :=
  fun c a h => ofVal (di_value o p hc hp) fun x j => by
    have e := wilderSum_mul (p := p) (plusDM_aff (a := a) h fun k => (⟨(x k).high, (x k).low⟩ : HL R))
    have e' := wilderSum_mul (p := p) (minusDM_aff (a := a) h fun k => (⟨(x k).high, (x k).low⟩ : HL R))
    have t := wilderSum_mul (p := p) fun i => trueRange_aff (a := a) h x (i + 1)
    simp only [prices] at e e' t ⊢
    simp only [e, e', t, zero_mul_iff h, mul_left_comm _ c, quot h, id]

/-- Partial: inputs longer than the period. -/
theorem vi_units_partial [LawfulAbs R] (o : Nat → R) (p : Nat) (hc : toInt (o 0) = .ok (p : Int)) (hp : 1 ≤ p) :
    ShapeLike viBatch o (fun xs => p < xs.length) :=
  fun c a h => turns fun x N hN => ⟨_, _, vi_value_partial o p hc hp x N (by simpa [pre] using hN), vi_value_partial o p hc hp _ N (by simpa [pre] using hN), fun j _ => by
    have t := winSum_mul (p := p) fun i => trueRange_aff (a := a) h x (i + 1)
    have u := winSum_mul (p := p) (x := vortexUp x) (x' := vortexUp fun i => prices (fun v => c * v + a) (x i)) fun i => abs_sub_aff h _ _
    have d := winSum_mul (p := p) (x := vortexDown x) (x' := vortexDown fun i => prices (fun v => c * v + a) (x i)) fun i => abs_sub_aff h _ _
    simp only [vortex, t, u, d, zero_mul_iff h, quot h, id]⟩

/-- Partial: period 1 is left out. -/
theorem cmi_units_partial [LawfulTrunc R] [LawfulRound R] (o : Nat → R) (p : Nat) (hc : toInt (o 0) = .ok (p : Int)) (hp : 2 ≤ p) :
    ShapeLike cmiBatch o (fun xs => ∀ r ∈ xs, r.low ≤ r.high) :=
  fun c a h => turnsRows (s := p - 1) (fun r : HLC R => r.low ≤ r.high) ⟨0, 0, 0⟩ le_rfl fun x hx N => ⟨_, _, cmi_value_partial o p hc hp x hx N,
    cmi_value_partial o p hc hp _ (fun n => by simp only [prices, le_aff h]; exact hx n) N, fun n => by
      have t := trueRange_aff (a := a) h x
      simp only [rangeShare, winMax_mul h t, winMin_mul h t, winSum_mul t, ← mul_sub, quot h, id]⟩

theorem kvo_units [LawfulAbs R] (o : Nat → R) (s p : Nat) (hs : toInt (o 0) = .ok (s : Int)) (hc : toInt (o 1) = .ok (p : Int)) (h1 : 1 ≤ s) (h2 : s ≤ p) :
    ShapeLike kvoBatch o :=
  fun c a h => ofVal (kvo_value o s p hs hc h1 h2) fun x j => by rw [funext (klingerForce_aff (a := a) h x)]; rfl

theorem obv_units (o : Nat → R) :
    ShapeLike obvBatch o :=
  fun c a h => ofVal (obv_value o) fun x j => by simp only [prices, signedVolume, lt_aff h, id]

theorem ad_units (o : Nat → R) :
    ShapeLike adBatch o :=
  fun c a h => ofVal (ad_value o) fun x j => adLine_aff h x j

theorem adosc_units (o : Nat → R) (s p : Nat) (hs : toInt (o 0) = .ok (s : Int)) (hc : toInt (o 1) = .ok (p : Int)) (h1 : 1 ≤ s) (h2 : s ≤ p) :
    ShapeLike adoscBatch o :=
  fun c a h => ofVal (adosc_value o s p hs hc h1 h2) fun x j => by rw [funext (adLine_aff (a := a) h x)]; rfl

theorem cmf_units (o : Nat → R) (p : Nat) (hc : toInt (o 0) = .ok (p : Int)) (hp : 1 ≤ p) :
    ShapeLike cmfBatch o :=
  fun c a h => ofVal (cmf_value o p hc hp) fun x j => by simp only [closeLocation_aff h]; rfl

/-! ### Relative changes -/

theorem natr_units [LawfulAbs R] (o : Nat → R) (p : Nat) (hc : toInt (o 0) = .ok (p : Int)) (hp : 1 ≤ p) :
    RatioLike natrBatch o :=
  fun c h => ofVal (natr_value o p hc hp) fun x j => by
    have t := wilder_mul (p := p) (trueRange_mul h x)
    simp only [t, zero_mul_iff h]; simp only [prices, mul_left_comm _ c, quot h, id]

theorem mfi_units (o : Nat → R) (p : Nat) (hc : toInt (o 0) = .ok (p : Int)) (hp : 1 ≤ p) :
    RatioLike mfiBatch o :=
  fun c h => ofVal (mfi_value o p hc hp) fun x j => by
    have u := winSum_mul (p := p) (flowUp_mul h x)
    have d := winSum_mul (p := p) (flowDown_mul h x)
    simp only [u, d, ← mul_add, zero_mul_iff h, quot h, id]

theorem nvi_units (o : Nat → R) :
    RatioLike nviBatch o :=
  fun c h => ofVal (nvi_value o) fun x j => by simp only [relChange_mul h x]; rfl

theorem pvi_units (o : Nat → R) :
    RatioLike pviBatch o :=
  fun c h => ofVal (pvi_value o) fun x j => by simp only [relChange_mul h x]; rfl

/-- Partial: bars with volume. -/
theorem pvt_units_partial (o : Nat → R) : RatioLike pvtBatch o (fun xs => ∀ r ∈ xs, r.volume ≠ 0) :=
  fun c h => turnsRows (s := 1) (fun r : CV R => r.volume ≠ 0) ⟨0, 1⟩ one_ne_zero fun x hx N => ⟨_, _, pvt_value_partial o x hx N,
    pvt_value_partial o _ (by exact hx) N, fun n => by simp only [priceVolumeTrend, relChange_mul h x]; rfl⟩

/-! ### Volume-weighted prices -/

theorem vwma_units (o : Nat → R) (p : Nat) (hc : toInt (o 0) = .ok (p : Int)) (hp : 1 ≤ p) :
    UnitLike vwmaBatch o :=
  fun c h => ofVal (vwma_value o p hc hp) fun x j => by
    have e := winSum_mul (p := p) (x := fun i => (x i).close * (x i).volume) (x' := fun i => c * (x i).close * (x i).volume) fun _ => mul_assoc _ _ _
    simp only [prices, e, zero_mul_iff h, mul_div_assoc, mul_ite, mul_zero]

theorem vwap_units [LawfulTrunc R] [LawfulRound R] (o : Nat → R) (p : Nat) (hc : toInt (o 0) = .ok (p : Int)) (hp : 1 ≤ p) :
    UnitLike vwapBatch o :=
  fun c h => ofVal (vwap_value o p hc hp) fun x j => by
    have e := winSum_mul (p := p) (x := fun k => typical x k * (x k).volume) (x' := fun k => typical (fun i => prices (fun v => c * v) (x i)) k * (x k).volume)
      fun k => by simp only [prices, typical]; ring
    simp only [volumeMean]
    rw [show winSum p (fun k => typical (fun i => prices (fun v => c * v) (x i)) k * (prices (fun v => c * v) (x k)).volume) j = _ from e j]
    simp only [zero_mul_iff h]; simp only [prices, mul_div_assoc, mul_ite, mul_zero]

theorem evwma_units (o : Nat → R) (p : Nat) (hc : toInt (o 0) = .ok (p : Int)) (hp : 1 ≤ p) (hg : 0 < o 1) :
    UnitLike evwmaBatch o :=
  fun c h => ofVal (evwma_value o p hc hp hg) fun x j => elasticMean_mul x j

/-! ### The unit of the volume -/

theorem obv_volume (o : Nat → R) : VolumeLike obvBatch o := fun v h => ofVal (obv_value o) fun x j => by
  simp only [volumes, signedVolume, prices, mul_sum, mul_ite, mul_zero, mul_neg]
theorem ad_volume (o : Nat → R) : VolumeLike adBatch o := fun v _ => ofVal (ad_value o) fun x j => adLine_vol x j
theorem adosc_volume (o : Nat → R) (s p : Nat) (hs : toInt (o 0) = .ok (s : Int)) (hc : toInt (o 1) = .ok (p : Int)) (h1 : 1 ≤ s) (h2 : s ≤ p) :
    VolumeLike adoscBatch o := fun v _ => ofVal (adosc_value o s p hs hc h1 h2) fun x j => by
  rw [ema_mul (adLine_vol (v := v) x), ema_mul (adLine_vol (v := v) x), ← mul_sub]; rfl
theorem kvo_volume [LawfulAbs R] (o : Nat → R) (s p : Nat) (hs : toInt (o 0) = .ok (s : Int)) (hc : toInt (o 1) = .ok (p : Int)) (h1 : 1 ≤ s) (h2 : s ≤ p) :
    VolumeLike kvoBatch o := fun v _ => ofVal (kvo_value o s p hs hc h1 h2) fun x j => by
  rw [ema_mul (klingerForce_vol (v := v) x), ema_mul (klingerForce_vol (v := v) x), ← mul_sub]; rfl
theorem fi_volume (o : Nat → R) (h : 1 ≤ o 0) : VolumeLike fiBatch o := fun v _ => ofVal (fi_value o h) fun x j =>
  ema_mul (fun k => by simp only [volumes, force]; ring) j
/-- Partial: bars with volume. -/
theorem pvt_volume_partial (o : Nat → R) : VolumeLike pvtBatch o (fun xs => ∀ r ∈ xs, r.volume ≠ 0) :=
  fun v h => turnsRows (s := 1) (fun r : CV R => r.volume ≠ 0) ⟨0, 1⟩ one_ne_zero fun x hx N => ⟨_, _, pvt_value_partial o x hx N,
    pvt_value_partial o _ (fun n => mul_ne_zero h.ne' (hx n)) N, fun n => by
      simp only [priceVolumeTrend, prices, mul_add, mul_sum]
      congr 1
      exact sum_congr rfl fun k _ => by simp only [volumes, relChange]; ring⟩
theorem mfi_volume (o : Nat → R) (p : Nat) (hc : toInt (o 0) = .ok (p : Int)) (hp : 1 ≤ p) : VolumeFree mfiBatch o :=
  fun v h => ofVal (mfi_value o p hc hp) fun x j => by
    have u := winSum_mul (p := p) (flowUp_vol (v := v) x)
    have d := winSum_mul (p := p) (flowDown_vol (v := v) x)
    simp only [u, d, ← mul_add, zero_mul_iff h, quot h, id]
theorem cmf_volume (o : Nat → R) (p : Nat) (hc : toInt (o 0) = .ok (p : Int)) (hp : 1 ≤ p) : VolumeFree cmfBatch o :=
  fun v h => ofVal (cmf_value o p hc hp) fun x j => by
    have u := winSum_mul (p := p) (x := fun k => (x k).volume) (x' := fun k => v * (x k).volume) fun _ => rfl
    have d := winSum_mul (p := p) (x := fun k => closeLocation (x k) * (x k).volume) (x' := fun k => closeLocation (x k) * (v * (x k).volume)) fun _ => mul_left_comm _ _ _
    simp only [volumes, closeLocation] at d ⊢
    simp only [u, d, zero_mul_iff h, quot h, id]
theorem nvi_volume (o : Nat → R) : VolumeFree nviBatch o := fun v h => ofVal (nvi_value o) fun x j => by
  simp only [volumes, relChange, mul_lt_mul_iff_right₀ h, id]
theorem pvi_volume (o : Nat → R) : VolumeFree pviBatch o := fun v h => ofVal (pvi_value o) fun x j => by
  simp only [volumes, relChange, mul_lt_mul_iff_right₀ h, mul_pos_iff_of_pos_left h, id]
theorem vwma_volume (o : Nat → R) (p : Nat) (hc : toInt (o 0) = .ok (p : Int)) (hp : 1 ≤ p) : VolumeFree vwmaBatch o :=
  fun v h => ofVal (vwma_value o p hc hp) fun x j => by
    have u := winSum_mul (p := p) (x := fun k => (x k).volume) (x' := fun k => v * (x k).volume) fun _ => rfl
    have d := winSum_mul (p := p) (x := fun k => (x k).close * (x k).volume) (x' := fun k => (x k).close * (v * (x k).volume)) fun _ => mul_left_comm _ _ _
    simp only [volumes, u, d, zero_mul_iff h, quot h, id]
theorem vwap_volume [LawfulTrunc R] [LawfulRound R] (o : Nat → R) (p : Nat) (hc : toInt (o 0) = .ok (p : Int)) (hp : 1 ≤ p) : VolumeFree vwapBatch o :=
  fun v h => ofVal (vwap_value o p hc hp) fun x j => by
    have u := winSum_mul (p := p) (x := fun k => (x k).volume) (x' := fun k => v * (x k).volume) fun _ => rfl
    have d := winSum_mul (p := p) (x := fun k => typical x k * (x k).volume) (x' := fun k => typical x k * (v * (x k).volume)) fun _ => mul_left_comm _ _ _
    simp only [volumes, volumeMean, typical] at d ⊢
    simp only [u, d, zero_mul_iff h, quot h, id]
    rfl
theorem evwma_volume (o : Nat → R) (p : Nat) (hc : toInt (o 0) = .ok (p : Int)) (hp : 1 ≤ p) (hg : 0 < o 1) : VolumeFree evwmaBatch o :=
  fun v h => ofVal (evwma_value o p hc hp hg) fun x j => elasticMean_vol h x j
/-- Ease of movement: twice the unit of the price, against the unit of the volume. -/
theorem emv_units (o : Nat → R) (c a v : R) (hc : 0 < c) (hv : 0 < v) :
    Turns emvBatch o (fun _ => True) (fun r => volumes (fun u => v * u) (prices (fun p => c * p + a) r)) (fun w => c ^ 2 / v * w) :=
  ofVal (emv_value o) fun x j => by
    simp only [volumes, prices]
    rw [show (c * (x (j + 1)).high + a + (c * (x (j + 1)).low + a)) / 2 - (c * (x j).high + a + (c * (x j).low + a)) / 2 =
      c * (((x (j + 1)).high + (x (j + 1)).low) / 2 - ((x j).high + (x j).low) / 2) by ring, sub_aff]
    simp only [zero_mul_iff hc]
    split
    · simp
    · have := hc.ne'
      have := hv.ne'
      simp only [div_div_eq_mul_div]
      field_simp
/-- Market facilitation: the unit of the price against the unit of the volume. -/
theorem marketfi_units (o : Nat → R) (c a v : R) (hc : 0 < c) (hv : 0 < v) :
    Turns marketfiBatch o (fun _ => True) (fun r => volumes (fun u => v * u) (prices (fun p => c * p + a) r)) (fun w => c / v * w) :=
  ofVal (marketfi_value o) fun x j => by
    simp only [volumes, prices, zero_mul_iff hv, sub_aff]
    split
    · simp
    · have := hv.ne'
      field_simp

end

end Verif
