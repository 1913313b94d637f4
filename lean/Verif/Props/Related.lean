/-
C83: the outputs of related functions agree with each other. The statements mention nothing but calls.
-/
import Verif.Proof.Related
import Verif.Props.Raise
import Verif.Props.Direction
import Verif.Props.Chan

namespace Verif
open Finset Spec Related

/-- The call `batch o xs` succeeds and writes `out`. -/
def Gives {R ρ ω : Type} (batch : (Nat → R) → List ρ → M (Ret × List ω)) (o : Nat → R) (xs : List ρ) (out : List ω) : Prop := batch o xs = .ok (.okay, out)

section
variable {R : Type} [Field R] [LinearOrder R] [IsStrictOrderedRing R] [CMath R]

local instance : Inhabited R := ⟨0⟩

/-- Equality of two lists put together from outputs. -/
macro "lists " j:ident : tactic => `(tactic| (simp only [drop_pre, map_pre, zip_pre]; try (refine pre_eq (by omega) fun $j => ?_; try rfl)))

/-! ### Scaling and combining -/

theorem sum_sma (o : Nat → R) (p : Nat) (hc : toInt (o 0) = .ok (p : Int)) (hp : 1 ≤ p) (xs : List R) :
    ∃ s m, Gives sumBatch o xs s ∧ Gives smaBatch o xs m ∧ s = m.map (fun v => (p : R) * v) := by
  obtain ⟨x, hx⟩ := exists_pre xs; rw [hx]
  refine ⟨_, _, sum_value o p hc hp x _, sma_value o p hc hp x _, ?_⟩
  lists j
  have : (p : R) ≠ 0 := by positivity
  simp only [winMean]; field_simp

theorem stddev_var [LawfulSqrt R] (o : Nat → R) (p : Nat) (hc : toInt (o 0) = .ok (p : Int)) (hp : 1 ≤ p) (xs : List R) :
    ∃ s v, Gives stddevBatch o xs s ∧ Gives varBatch o xs v ∧ s = v.map CMath.sqrt := by
  obtain ⟨x, hx⟩ := exists_pre xs; rw [hx]
  refine ⟨_, _, stddev_value o p hc hp x _, var_value o p hc hp x _, ?_⟩
  lists j

theorem stderr_stddev [LawfulSqrt R] (o : Nat → R) (p : Nat) (hc : toInt (o 0) = .ok (p : Int)) (hp : 1 ≤ p) (xs : List R) :
    ∃ e s, Gives stderrBatch o xs e ∧ Gives stddevBatch o xs s ∧ e = s.map (fun v => v / CMath.sqrt (p : R)) := by
  obtain ⟨x, hx⟩ := exists_pre xs; rw [hx]
  refine ⟨_, _, stderr_value o p hc hp x _, stddev_value o p hc hp x _, ?_⟩
  lists j

theorem bbands_sma_stddev [LawfulSqrt R] (o : Nat → R) (p : Nat) (hc : toInt (o 0) = .ok (p : Int)) (hp : 1 ≤ p) (xs : List R) :
    ∃ b m s, Gives bbandsBatch o xs b ∧ Gives smaBatch o xs m ∧ Gives stddevBatch o xs s ∧
      b = List.zipWith (fun m s => (⟨m - o 1 * s, m, m + o 1 * s⟩ : Bands R)) m s := by
  obtain ⟨x, hx⟩ := exists_pre xs; rw [hx]
  refine ⟨_, _, _, bbands_value o p hc hp x _, sma_value o p hc hp x _, stddev_value o p hc hp x _, ?_⟩
  lists j

theorem mom_lag (o : Nat → R) (p : Nat) (hc : toInt (o 0) = .ok (p : Int)) (hp : 1 ≤ p) (xs : List R) :
    ∃ m l, Gives momBatch o xs m ∧ Gives lagBatch o xs l ∧ m = List.zipWith (· - ·) (xs.drop p) l := by
  obtain ⟨x, hx⟩ := exists_pre xs; rw [hx]
  refine ⟨_, _, mom_value o p hc hp x _, lag_value o p hc x _, ?_⟩
  lists j

theorem roc_mom_lag (o : Nat → R) (p : Nat) (hc : toInt (o 0) = .ok (p : Int)) (hp : 1 ≤ p) (xs : List R) :
    ∃ r m l, Gives rocBatch o xs r ∧ Gives momBatch o xs m ∧ Gives lagBatch o xs l ∧ r = List.zipWith (fun m l => if l = 0 then 0 else m / l) m l := by
  obtain ⟨x, hx⟩ := exists_pre xs; rw [hx]
  refine ⟨_, _, _, roc_value o p hc hp x _, mom_value o p hc hp x _, lag_value o p hc x _, ?_⟩
  lists j

theorem rocr_roc (o : Nat → R) (p : Nat) (hc : toInt (o 0) = .ok (p : Int)) (hp : 1 ≤ p) (xs : List R) :
    ∃ q r l, Gives rocrBatch o xs q ∧ Gives rocBatch o xs r ∧ Gives lagBatch o xs l ∧ q = List.zipWith (fun r l => if l = 0 then 0 else r + 1) r l := by
  obtain ⟨x, hx⟩ := exists_pre xs; rw [hx]
  refine ⟨_, _, _, rocr_value o p hc hp x _, roc_value o p hc hp x _, lag_value o p hc x _, ?_⟩
  lists j
  split
  · rfl
  · field_simp; ring

/-- lag by p after lag by q is lag by p + q. -/
theorem lag_lag (o1 o2 o : Nat → R) (p q : Nat) (h1 : toInt (o1 0) = .ok (p : Int)) (h2 : toInt (o2 0) = .ok (q : Int))
    (h : toInt (o 0) = .ok ((p + q : Nat) : Int)) (xs : List R) : ∃ u v, Gives lagBatch o1 xs u ∧ Gives lagBatch o2 u v ∧ Gives lagBatch o xs v := by
  obtain ⟨x, hx⟩ := exists_pre xs; rw [hx]
  refine ⟨_, _, lag_value o1 p h1 x _, lag_value o2 q h2 _ _, (lag_value o _ h x _).trans ?_⟩
  congr 2
  exact pre_eq (by omega) fun _ => rfl

/-! ### Exponential averages -/

theorem apo_ema (o o1 o2 : Nat → R) (p q : Nat) (hc : toInt (o 0) = .ok (p : Int)) (hc1 : toInt (o 1) = .ok (q : Int))
    (h1 : toInt (o1 0) = .ok (p : Int)) (h2 : toInt (o2 0) = .ok (q : Int)) (hp : 1 ≤ p) (hq : 2 ≤ q) (hpq : p ≤ q) (xs : List R) :
    ∃ a s l, Gives apoBatch o xs a ∧ Gives emaBatch o1 xs s ∧ Gives emaBatch o2 xs l ∧ a = List.zipWith (· - ·) (s.drop 1) (l.drop 1) := by
  obtain ⟨x, hx⟩ := exists_pre xs; rw [hx]
  refine ⟨_, _, _, apo_value o p q hc hc1 hp hq hpq x _, ema_value o1 p h1 hp x _, ema_value o2 q h2 (by omega) x _, ?_⟩
  lists j

theorem ppo_apo_ema (o o2 : Nat → R) (p q : Nat) (hc : toInt (o 0) = .ok (p : Int)) (hc1 : toInt (o 1) = .ok (q : Int))
    (h2 : toInt (o2 0) = .ok (q : Int)) (hp : 1 ≤ p) (hq : 2 ≤ q) (hpq : p ≤ q) (xs : List R) :
    ∃ u a l, Gives ppoBatch o xs u ∧ Gives apoBatch o xs a ∧ Gives emaBatch o2 xs l ∧ u = List.zipWith (fun a l => if a = 0 then 0 else 100 * a / l) a (l.drop 1) := by
  obtain ⟨x, hx⟩ := exists_pre xs; rw [hx]
  refine ⟨_, _, _, ppo_value o p q hc hc1 hp hq hpq x _, apo_value o p q hc hc1 hp hq hpq x _, ema_value o2 q h2 (by omega) x _, ?_⟩
  lists j

/-- Partial: all periods but 12 and 26, for which macd takes other coefficients (`macd_apo_violates`). -/
theorem macd_apo_partial (o o3 : Nat → R) (p q r : Nat) (hc : toInt (o 0) = .ok (p : Int)) (hc1 : toInt (o 1) = .ok (q : Int)) (hc2 : toInt (o 2) = .ok (r : Int))
    (h3 : toInt (o3 0) = .ok (r : Int)) (hp : 1 ≤ p) (hq : 2 ≤ q) (hpq : p ≤ q) (hr : 1 ≤ r) (hne : ¬ (p = 12 ∧ q = 26)) (xs : List R) :
    ∃ w a s, Gives macdBatch o xs w ∧ Gives apoBatch o xs a ∧ Gives emaBatch o3 (a.drop (q - 2)) s ∧
      w = List.zipWith (fun l s => (⟨l, s, l - s⟩ : Macd R)) (a.drop (q - 2)) s := by
  obtain ⟨x, hx⟩ := exists_pre xs; rw [hx]
  have e : (macdCoef p q : R × R) = (emaCoef p, emaCoef q) := by simp [macdCoef, hne]
  refine ⟨_, _, _, macd_value o p q r hc hc1 hc2 hp hq hpq hr x _, apo_value o p q hc hc1 hp hq hpq x _, by
    rw [drop_pre]; exact ema_value o3 r h3 hr _ _, ?_⟩
  lists j
  have i1 : ∀ j, j + (q - 2) + 1 = j + (q - 1) := fun j => by omega
  simp only [e, i1]
  rfl

/-- Partial: the start index is computed without overflow. -/
theorem dema_ema_partial (o : Nat → R) (p : Nat) (hc : toInt (o 0) = .ok (p : Int)) (hp : 1 ≤ p) (hb : (p - 1) * 2 ≤ 2147483647) (xs : List R) :
    ∃ w e e2, Gives demaBatch o xs w ∧ Gives emaBatch o xs e ∧ Gives emaBatch o (e.drop (p - 1)) e2 ∧
      w = List.zipWith (fun e e2 => 2 * e - e2) (e.drop ((p - 1) * 2)) (e2.drop (p - 1)) := by
  obtain ⟨x, hx⟩ := exists_pre xs; rw [hx]
  refine ⟨_, _, _, dema_value_partial o p hc hp hb x _, ema_value o p hc hp x _, by rw [drop_pre]; exact ema_value o p hc hp _ _, ?_⟩
  lists j

/-- Partial: the start index is computed without overflow. -/
theorem tema_ema_partial (o : Nat → R) (p : Nat) (hc : toInt (o 0) = .ok (p : Int)) (hp : 1 ≤ p) (hb : (p - 1) * 3 ≤ 2147483647) (xs : List R) :
    ∃ w e e2 e3, Gives temaBatch o xs w ∧ Gives emaBatch o xs e ∧ Gives emaBatch o (e.drop (p - 1)) e2 ∧ Gives emaBatch o (e2.drop (p - 1)) e3 ∧
      w = List.zipWith (· + ·) (List.zipWith (fun e e2 => 3 * e - 3 * e2) (e.drop ((p - 1) * 3)) (e2.drop ((p - 1) * 2))) (e3.drop (p - 1)) := by
  obtain ⟨x, hx⟩ := exists_pre xs; rw [hx]
  refine ⟨_, _, _, _, tema_value_partial o p hc hp hb x _, ema_value o p hc hp x _, by rw [drop_pre]; exact ema_value o p hc hp _ _,
    by rw [drop_pre]; exact ema_value o p hc hp _ _, ?_⟩
  lists j

/-- The change of trix is relative to the newer average, not the older one as in roc. Partial: the start index is computed without overflow; period 1
is left out. -/
theorem trix_ema_partial (o : Nat → R) (p : Nat) (hc : toInt (o 0) = .ok (p : Int)) (hp : 2 ≤ p) (hb : p * 3 ≤ 2147483647) (xs : List R) :
    ∃ w e e2 e3, Gives trixBatch o xs w ∧ Gives emaBatch o xs e ∧ Gives emaBatch o (e.drop (p - 1)) e2 ∧ Gives emaBatch o (e2.drop (p - 1)) e3 ∧
      w = List.zipWith (fun old new => if new = 0 then 0 else (new - old) / new * 100) (e3.drop (p - 1)) (e3.drop p) := by
  obtain ⟨x, hx⟩ := exists_pre xs; rw [hx]
  refine ⟨_, _, _, _, trix_value_partial o p hc hp hb x _, ema_value o p hc (by omega) x _, by rw [drop_pre]; exact ema_value o p hc (by omega) _ _,
    by rw [drop_pre]; exact ema_value o p hc (by omega) _ _, ?_⟩
  lists j
  have i1 : j + (p - 1) = j + p - 1 := by omega
  rw [i1]
  rfl

/-- t3 with volume factor 0 is three averages in a row. -/
theorem t3_ema (o o1 : Nat → R) (p : Nat) (h0 : o 0 = (p : R)) (h1 : o 1 = 0) (hc : toInt (o1 0) = .ok (p : Int)) (hp : 1 ≤ p) (xs : List R) :
    ∃ e e2 w, Gives emaBatch o1 xs e ∧ Gives emaBatch o1 e e2 ∧ Gives emaBatch o1 e2 w ∧ Gives t3Batch o xs w := by
  obtain ⟨x, hx⟩ := exists_pre xs; rw [hx]
  refine ⟨_, _, _, ema_value o1 p hc hp x _, ema_value o1 p hc hp _ _, ema_value o1 p hc hp _ _, (t3_value o (by rw [h0]; exact_mod_cast hp) (by rw [h1]) x _).trans ?_⟩
  congr 2
  refine pre_eq (by omega) fun j => ?_
  have g : ∀ y : Nat → R, gdema (2 / (o 0 + 1)) (o 1) y = ema (emaCoef p) y := fun y => funext fun i => by
    rw [gdema, h1, h0, emaCoef]; ring
  rw [Spec.t3, g, g, g]

/-! ### Windows -/

/-- Partial: the start index is computed without overflow. -/
theorem dwma_wma_partial [LawfulTrunc R] [LawfulRound R] (o : Nat → R) (p : Nat) (ho : o 0 = ((p : Int) : R)) (hc : toInt (o 0) = .ok (p : Int)) (hp : 1 ≤ p)
    (hb : p * (p + 1) ≤ 2147483647) (hb' : p ≤ 1073741824) (xs : List R) : ∃ u w, Gives wmaBatch o xs u ∧ Gives wmaBatch o u w ∧ Gives dwmaBatch o xs w := by
  obtain ⟨x, hx⟩ := exists_pre xs; rw [hx]
  refine ⟨_, _, wma_value_partial o p hc hp hb x _, wma_value_partial o p hc hp hb _ _, (dwma_value_partial o p ho hp hb' x _).trans ?_⟩
  congr 2
  exact pre_eq (by omega) fun _ => rfl

/-- Partial: the weight total of wma does not overflow. -/
theorem lma_wma_sma_partial [LawfulTrunc R] [LawfulRound R] (o : Nat → R) (p : Nat) (hc : toInt (o 0) = .ok (p : Int)) (hp : 1 ≤ p)
    (hb : p * (p + 1) ≤ 2147483647) (xs : List R) : ∃ w u m, Gives lmaBatch o xs w ∧ Gives wmaBatch o xs u ∧ Gives smaBatch o xs m ∧
      w = List.zipWith (fun u m => 2 * u - m) u m := by
  obtain ⟨x, hx⟩ := exists_pre xs; rw [hx]
  refine ⟨_, _, _, lma_value o p hc hp x _, wma_value_partial o p hc hp hb x _, sma_value o p hc hp x _, ?_⟩
  lists j

/-- Partial: the weight totals do not overflow. -/
theorem hma_wma_partial (o o1 o2 o3 : Nat → R) (p s : Nat) (hc : toInt (o 0) = .ok (p : Int)) (hs : toInt (CMath.sqrt ((p : Int) : R)) = .ok (s : Int))
    (h1 : toInt (o1 0) = .ok ((p / 2 : Nat) : Int)) (h2 : toInt (o2 0) = .ok (p : Int)) (h3 : toInt (o3 0) = .ok (s : Int))
    (hp : 2 ≤ p) (hs1 : 1 ≤ s) (hsp : s ≤ p) (hb : p * (p + 1) ≤ 2147483647) (xs : List R) :
    ∃ u v w, Gives wmaBatch o1 xs u ∧ Gives wmaBatch o2 xs v ∧ Gives wmaBatch o3 (List.zipWith (fun u v => 2 * u - v) (u.drop (p - p / 2)) v) w ∧
      Gives hmaBatch o xs w := by
  obtain ⟨x, hx⟩ := exists_pre xs; rw [hx]
  have b1 : p / 2 * (p / 2 + 1) ≤ 2147483647 := le_trans (Nat.mul_le_mul (by omega) (by omega)) hb
  have b3 : s * (s + 1) ≤ 2147483647 := le_trans (Nat.mul_le_mul hsp (by omega)) hb
  refine ⟨_, _, _, wma_value_partial o1 _ h1 (by omega) b1 x _, wma_value_partial o2 p h2 (by omega) hb x _, by
    rw [drop_pre, zip_pre]; exact wma_value_partial o3 s h3 hs1 b3 _ _, (hma_value_partial o p s hc hs hp hs1 hsp hb x _).trans ?_⟩
  congr 2
  exact pre_eq (by omega) fun _ => rfl

theorem vwma_sum (o : Nat → R) (p : Nat) (hc : toInt (o 0) = .ok (p : Int)) (hp : 1 ≤ p) (xs : List (CV R)) :
    ∃ w u v, Gives vwmaBatch o xs w ∧ Gives sumBatch o (xs.map fun r => r.close * r.volume) u ∧ Gives sumBatch o (xs.map fun r => r.volume) v ∧
      w = List.zipWith (fun u v => if u = 0 then 0 else u / v) u v := by
  obtain ⟨x, hx⟩ := exists_pre xs; rw [hx]
  refine ⟨_, _, _, vwma_value o p hc hp x _, by rw [map_pre]; exact sum_value o p hc hp _ _, by rw [map_pre]; exact sum_value o p hc hp _ _, ?_⟩
  lists j

theorem vosc_sma (o o1 o2 : Nat → R) (s p : Nat) (hs : toInt (o 0) = .ok (s : Int)) (hc : toInt (o 1) = .ok (p : Int)) (k1 : toInt (o1 0) = .ok (s : Int))
    (k2 : toInt (o2 0) = .ok (p : Int)) (h1 : 1 ≤ s) (h2 : s ≤ p) (xs : List R) : ∃ w u v, Gives voscBatch o xs w ∧ Gives smaBatch o1 xs u ∧ Gives smaBatch o2 xs v ∧
      w = List.zipWith (fun u v => if u = v then 0 else 100 * (u - v) / v) (u.drop (p - s)) v := by
  obtain ⟨x, hx⟩ := exists_pre xs; rw [hx]
  refine ⟨_, _, _, vosc_value o s p hs hc h1 h2 x _, sma_value o1 s k1 h1 x _, sma_value o2 p k2 (by omega) x _, ?_⟩
  lists j

theorem qstick_sma (o : Nat → R) (p : Nat) (hc : toInt (o 0) = .ok (p : Int)) (hp : 1 ≤ p) (xs : List (OC R)) :
    ∃ w, Gives qstickBatch o xs w ∧ Gives smaBatch o (xs.map fun r => r.close - r.open) w := by
  obtain ⟨x, hx⟩ := exists_pre xs; rw [hx]
  exact ⟨_, qstick_value o p hc hp x _, by rw [map_pre]; exact sma_value o p hc hp _ _⟩

theorem ao_sma (o o1 o2 : Nat → R) (k1 : toInt (o1 0) = .ok 5) (k2 : toInt (o2 0) = .ok 34) (xs : List (HL R)) :
    ∃ w m u v, Gives aoBatch o xs w ∧ Gives medpriceBatch o xs m ∧ Gives smaBatch o1 m u ∧ Gives smaBatch o2 m v ∧ w = List.zipWith (· - ·) (u.drop 29) v := by
  obtain ⟨x, hx⟩ := exists_pre xs; rw [hx]
  refine ⟨_, _, _, _, ao_value o x _, medprice_value o x _, sma_value o1 5 k1 (by omega) _ _, sma_value o2 34 k2 (by omega) _ _, ?_⟩
  lists j

/-- Partial: periods 1 and 2 read before the input. -/
theorem dpo_sma_partial (o : Nat → R) (p : Nat) (hc : toInt (o 0) = .ok (p : Int)) (hp : 3 ≤ p) (xs : List R) :
    ∃ w m, Gives dpoBatch o xs w ∧ Gives smaBatch o xs m ∧ w = List.zipWith (· - ·) (xs.drop (p - 1 - (p / 2 + 1))) m := by
  obtain ⟨x, hx⟩ := exists_pre xs; rw [hx]
  refine ⟨_, _, dpo_value_partial o p hc hp x _, sma_value o p hc (by omega) x _, ?_⟩
  lists j
  rw [show j + (p - 1) - (p / 2 + 1) = j + (p - 1 - (p / 2 + 1)) by omega]

/-- Partial: periods up to 1. -/
theorem pc_max_min_partial [LawfulTrunc R] [LawfulRound R] (o : Nat → R) (p : Nat) (hc : toInt (o 0) = .ok (p : Int)) (hp : 2 ≤ p) (xs : List (HL R)) :
    ∃ w u v, Gives pcBatch o xs w ∧ Gives maxBatch o (xs.map fun r => r.high) u ∧ Gives minBatch o (xs.map fun r => r.low) v ∧
      w = List.zipWith (fun u v => (⟨u, v⟩ : HL R)) u v := by
  obtain ⟨x, hx⟩ := exists_pre xs; rw [hx]
  refine ⟨_, _, _, pc_value_partial o p hc hp x _, by rw [map_pre]; exact max_value o p hc (by omega) _ _, by rw [map_pre]; exact min_value o p hc (by omega) _ _, ?_⟩
  lists j

/-! ### True range, direction, volume -/

theorem atr_tr_wilders [LawfulAbs R] (o : Nat → R) (p : Nat) (hc : toInt (o 0) = .ok (p : Int)) (hp : 1 ≤ p) (xs : List (HLC R)) :
    ∃ t w, Gives trBatch o xs t ∧ Gives wildersBatch o t w ∧ Gives atrBatch o xs w := by
  obtain ⟨x, hx⟩ := exists_pre xs; rw [hx]
  exact ⟨_, _, tr_value o x _, wilders_value o p hc hp _ _, atr_value o p hc hp x _⟩

theorem natr_atr [LawfulAbs R] (o : Nat → R) (p : Nat) (hc : toInt (o 0) = .ok (p : Int)) (hp : 1 ≤ p) (xs : List (HLC R)) :
    ∃ w a, Gives natrBatch o xs w ∧ Gives atrBatch o xs a ∧ w = List.zipWith (fun a r => if a = 0 then 0 else 100 * a / r.close) a (xs.drop (p - 1)) := by
  obtain ⟨x, hx⟩ := exists_pre xs; rw [hx]
  refine ⟨_, _, natr_value o p hc hp x _, atr_value o p hc hp x _, ?_⟩
  lists j

theorem dx_dm [LawfulAbs R] (o : Nat → R) (p : Nat) (hc : toInt (o 0) = .ok (p : Int)) (hp : 1 ≤ p) (xs : List (HL R)) :
    ∃ w d, Gives dxBatch o xs w ∧ Gives dmBatch o xs d ∧ w = d.map fun r => if r.plus + r.minus = 0 then 0 else 100 * (|r.plus - r.minus| / (r.plus + r.minus)) := by
  obtain ⟨x, hx⟩ := exists_pre xs; rw [hx]
  refine ⟨_, _, dx_value o p hc hp x _, dm_value o p hc hp x _, ?_⟩
  lists j

/-- Partial: the start index is computed without overflow; period 1 is left out. -/
theorem adx_dx_wilders_partial [LawfulAbs R] (o : Nat → R) (p : Nat) (hc : toInt (o 0) = .ok (p : Int)) (hp : 2 ≤ p) (hb : (p - 1) * 2 ≤ 2147483647) (xs : List (HL R)) :
    ∃ d w, Gives dxBatch o xs d ∧ Gives wildersBatch o d w ∧ Gives adxBatch o xs w := by
  obtain ⟨x, hx⟩ := exists_pre xs; rw [hx]
  refine ⟨_, _, dx_value o p hc (by omega) x _, wilders_value o p hc (by omega) _ _, (adx_value_partial o p hc hp hb x _).trans ?_⟩
  congr 2
  exact pre_eq (by omega) fun _ => rfl

/-- Partial: the start index is computed without overflow; period 1 is left out. -/
theorem adxr_adx_partial [LawfulAbs R] (o : Nat → R) (p : Nat) (hc : toInt (o 0) = .ok (p : Int)) (hp : 2 ≤ p) (hb : (p - 1) * 3 ≤ 2147483647) (xs : List (HL R)) :
    ∃ w a, Gives adxrBatch o xs w ∧ Gives adxBatch o xs a ∧ w = List.zipWith (fun new old => (new + old) / 2) (a.drop (p - 1)) a := by
  obtain ⟨x, hx⟩ := exists_pre xs; rw [hx]
  refine ⟨_, _, adxr_value_partial o p hc hp hb x _, adx_value_partial o p hc hp (by omega) x _, ?_⟩
  lists j

theorem adosc_ad_ema (o o1 o2 : Nat → R) (s p : Nat) (hs : toInt (o 0) = .ok (s : Int)) (hc : toInt (o 1) = .ok (p : Int)) (k1 : toInt (o1 0) = .ok (s : Int))
    (k2 : toInt (o2 0) = .ok (p : Int)) (h1 : 1 ≤ s) (h2 : s ≤ p) (xs : List (HLCV R)) : ∃ w a u v, Gives adoscBatch o xs w ∧ Gives adBatch o xs a ∧
      Gives emaBatch o1 a u ∧ Gives emaBatch o2 a v ∧ w = List.zipWith (· - ·) (u.drop (p - 1)) (v.drop (p - 1)) := by
  obtain ⟨x, hx⟩ := exists_pre xs; rw [hx]
  refine ⟨_, _, _, _, adosc_value o s p hs hc h1 h2 x _, ad_value o x _, ema_value o1 s k1 h1 _ _, ema_value o2 p k2 (by omega) _ _, ?_⟩
  lists j

/-! ### Lines of best fit -/

/-- Partial: period 1 and periods whose square overflows are left out. -/
theorem linreg_slope_intercept_partial (o : Nat → R) (p : Nat) (hc : toInt (o 0) = .ok (p : Int)) (hp : 2 ≤ p) (hpp : p * p ≤ 2147483647) (xs : List R) :
    ∃ w b i, Gives linregBatch o xs w ∧ Gives linregslopeBatch o xs b ∧ Gives linreginterceptBatch o xs i ∧
      w = List.zipWith (fun i b => i + b * ((p : R) - 1)) i b := by
  obtain ⟨x, hx⟩ := exists_pre xs; rw [hx]
  obtain ⟨A1, B1, h1, k1⟩ := linreg_value_partial o p hc hp hpp
  obtain ⟨A2, B2, h2, k2⟩ := linregslope_value_partial o p hc hp hpp
  obtain ⟨A3, B3, h3, k3⟩ := linregintercept_value_partial o p hc hp hpp
  refine ⟨_, _, _, k1 x _, k2 x _, k3 x _, ?_⟩
  lists j
  obtain ⟨a1, b1⟩ := lr_unique x p j hp _ _ (h1 x j)
  obtain ⟨-, b2⟩ := lr_unique x p j hp _ _ (h2 x j)
  obtain ⟨a3, b3⟩ := lr_unique x p j hp _ _ (h3 x j)
  rw [a1, b1, b2, a3, b3]; ring

/-- Partial: period 1 and periods whose square overflows are left out. -/
theorem tsf_linreg_slope_partial (o : Nat → R) (p : Nat) (hc : toInt (o 0) = .ok (p : Int)) (hp : 2 ≤ p) (hpp : p * p ≤ 2147483647) (xs : List R) :
    ∃ w b r, Gives tsfBatch o xs w ∧ Gives linregslopeBatch o xs b ∧ Gives linregBatch o xs r ∧ w = List.zipWith (· + ·) r b := by
  obtain ⟨x, hx⟩ := exists_pre xs; rw [hx]
  obtain ⟨A1, B1, h1, k1⟩ := tsf_value_partial o p hc hp hpp
  obtain ⟨A2, B2, h2, k2⟩ := linregslope_value_partial o p hc hp hpp
  obtain ⟨A3, B3, h3, k3⟩ := linreg_value_partial o p hc hp hpp
  refine ⟨_, _, _, k1 x _, k2 x _, k3 x _, ?_⟩
  lists j
  obtain ⟨a1, b1⟩ := lr_unique x p j hp _ _ (h1 x j)
  obtain ⟨-, b2⟩ := lr_unique x p j hp _ _ (h2 x j)
  obtain ⟨a3, b3⟩ := lr_unique x p j hp _ _ (h3 x j)
  rw [a1, b1, b2, a3, b3]; ring

/-- fosc: by how many percent of the price the forecast made one bar earlier missed it. Partial: period 1 and periods whose square overflows are left out. -/
theorem fosc_tsf_partial (o : Nat → R) (p : Nat) (hc : toInt (o 0) = .ok (p : Int)) (hp : 2 ≤ p) (hpp : p * p ≤ 2147483647) (xs : List R) :
    ∃ w t, Gives foscBatch o xs w ∧ Gives tsfBatch o xs t ∧ w = List.zipWith (fun v t => 100 * (v - t) / v) (xs.drop p) t := by
  obtain ⟨x, hx⟩ := exists_pre xs; rw [hx]
  obtain ⟨A1, B1, h1, k1⟩ := fosc_value_partial o p hc hp hpp
  obtain ⟨A2, B2, h2, k2⟩ := tsf_value_partial o p hc hp hpp
  refine ⟨_, _, k1 x _, k2 x _, ?_⟩
  lists j
  obtain ⟨a1, b1⟩ := lr_unique x p j hp _ _ (h1 x j)
  obtain ⟨a2, b2⟩ := lr_unique x p j hp _ _ (h2 x j)
  rw [a1, b1, a2, b2]

/-! ### Crossings, oscillators -/

/-- A crossing either way is a crossing of one of the lines over the other. -/
theorem crossany_crossover (o : Nat → R) (xs : List (AB R)) : ∃ w u v, Gives crossanyBatch o xs w ∧ Gives crossoverBatch o xs u ∧
    Gives crossoverBatch o (xs.map fun r => ⟨r.b, r.a⟩) v ∧ w = List.zipWith (· + ·) u v := by
  obtain ⟨x, hx⟩ := exists_pre xs; rw [hx]
  refine ⟨_, _, _, crossany_value o x _, crossover_value o x _, by rw [map_pre]; exact crossover_value o _ _, ?_⟩
  lists j
  by_cases h1 : (x (j + 1)).b < (x (j + 1)).a <;> by_cases h2 : (x (j + 1)).a < (x (j + 1)).b
  · exact absurd h1 (lt_asymm h2)
  · simp [h1, h2]
  · simp [h1, h2]
  · simp [h1, h2]

/-- Without slowing the stochastic is Williams' %R plus 100; where the window shows no movement both write 0. -/
theorem stoch_willr (o o1 : Nat → R) (p d : Nat) (h0 : toInt (o 0) = .ok (p : Int)) (h1 : toInt (o 1) = .ok 1) (h2 : toInt (o 2) = .ok (d : Int))
    (k : toInt (o1 0) = .ok (p : Int)) (hp : 1 ≤ p) (hd : 1 ≤ d) (hb : p + 1 + d ≤ 2147483647) (xs : List (HLC R)) :
    ∃ w u, Gives stochBatch o xs w ∧ Gives willrBatch o1 xs u ∧
      List.Forall₂ (fun r v => r.k = v + 100 ∨ r.k = 0 ∧ v = 0) w (u.drop (d - 1)) := by
  obtain ⟨x, hx⟩ := exists_pre xs; rw [hx]
  refine ⟨_, _, stoch_value_partial o p 1 d h0 h1 h2 hp le_rfl hd hb x _, willr_value o1 p k hp x _, ?_⟩
  rw [drop_pre]
  refine forall_pre (by omega) fun j => ?_
  simp only [winMean, winSum, fastK, inRange]
  simp only [sum_range_one, Nat.cast_one, div_one, add_zero]
  by_cases h : winMax p (fun i => (x i).high) (j + (d - 1)) - winMin p (fun i => (x i).low) (j + (d - 1)) = 0
  · right; simp [h]
  · left; simp only [h, if_false]
    field_simp; ring

end

/-- For the periods 12 and 26 the macd line is not apo: macd uses 0.15 and 0.075 where apo has 2/13 and 2/27. -/
theorem macd_apo_violates : ∃ xs w a, Gives (R := Rat) macdBatch (opts [12, 26, 9]) xs w ∧ Gives (R := Rat) apoBatch (opts [12, 26]) xs a ∧
    w.map (fun r => r.macd) ≠ a.drop 24 := by
  have key : ∀ u v : M (Ret × List _), (match u, v with | .ok (.okay, w), .ok (.okay, a) => decide (w.map (fun r : Macd Rat => r.macd) ≠ a.drop 24) | _, _ => false) = true →
      ∃ w a, u = .ok (.okay, w) ∧ v = .ok (.okay, a) ∧ w.map (fun r : Macd Rat => r.macd) ≠ a.drop 24 := fun u v h => by
    split at h
    · exact ⟨_, _, rfl, rfl, by simpa using h⟩
    · exact absurd h (by decide)
  exact ⟨1 :: List.replicate 25 0, key _ _ (by decide +kernel)⟩

/-! Concrete instances of the hypotheses, and calls related by the theorems. -/

example (xs : List Rat) := macd_apo_partial (opts [2, 3, 2]) (opts [2]) 2 3 2 (by decide +kernel) (by decide +kernel) (by decide +kernel) (by decide +kernel) (by decide) (by decide) (by decide)
  (by decide) (by decide) xs
example (xs : List Rat) := dema_ema_partial (opts [3]) 3 (by decide +kernel) (by decide) (by decide) xs
example (xs : List Rat) := hma_wma_partial (opts [4]) (opts [2]) (opts [4]) (opts [2]) 4 2 (by decide +kernel) (by decide +kernel) (by decide +kernel) (by decide +kernel)
  (by decide +kernel) (by decide) (by decide) (by decide) (by decide) xs
example (xs : List (HLC Rat)) := stoch_willr (opts [3, 1, 2]) (opts [3]) 3 2 (by decide +kernel) (by decide +kernel) (by decide +kernel) (by decide +kernel) (by decide) (by decide) (by decide) xs
example (xs : List (HL Rat)) := adx_dx_wilders_partial (opts [3]) 3 (by decide +kernel) (by decide) (by decide) xs
example (xs : List (HL Rat)) := ao_sma (opts []) (opts [5]) (opts [34]) (by decide +kernel) (by decide +kernel) xs
example (xs : List Rat) := t3_ema (opts [5, 0]) (opts [5]) 5 (by decide +kernel) (by decide +kernel) (by decide +kernel) (by decide) xs
example (xs : List Rat) := fosc_tsf_partial (opts [3]) 3 (by decide +kernel) (by decide) (by decide) xs
example : Gives (R := Rat) wmaBatch (opts [2]) [1, 2, 4, 8] [5/3, 10/3, 20/3] ∧ Gives (R := Rat) wmaBatch (opts [2]) [5/3, 10/3, 20/3] [25/9, 50/9] ∧
    Gives (R := Rat) dwmaBatch (opts [2]) [1, 2, 4, 8] [25/9, 50/9] := by unfold Gives; decide +kernel
example : Gives (R := Rat) tsfBatch (opts [3]) [1, 0, 0, 4] [-2/3, 16/3] ∧ Gives (R := Rat) foscBatch (opts [3]) [1, 0, 0, 4] [350/3] := by unfold Gives; decide +kernel

end Verif
