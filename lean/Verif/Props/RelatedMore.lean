/-
C83, continued: functions that are compositions of other functions.
-/
import Verif.Props.Related
import Verif.Props.Stats
import Verif.Props.Smooth

namespace Verif
open Finset Spec Related

section
variable {R : Type} [Field R] [LinearOrder R] [IsStrictOrderedRing R] [CMath R]

local instance : Inhabited R := ⟨0⟩

/-- A list whose elements all satisfy `P` is the beginning of a sequence of such elements. -/
theorem exists_pre_all {α : Type} {P : α → Prop} (xs : List α) (h : ∀ a ∈ xs, P a) (d : α) (hd : P d) : ∃ x : Nat → α, xs = pre x xs.length ∧ ∀ n, P (x n) := by
  refine ⟨fun i => if hi : i < xs.length then xs[i] else d, List.ext_getElem (by simp) fun i h1 h2 => by simp [pre, h1], fun n => ?_⟩
  by_cases hn : n < xs.length
  · simp only [hn, dite_true]; exact h _ (List.getElem_mem hn)
  · simp only [hn, dite_false]; exact hd

theorem take_pre {α : Type} (x : Nat → α) (n k : Nat) : (pre x n).take k = pre x (min k n) :=
  List.ext_getElem (by simp [pre]) fun i h1 h2 => by simp [pre]

/-! ### Windows of windows -/

theorem tri_count (m n k : Nat) (h1 : m ≤ n + 1) (h2 : n ≤ m + 1) :
    ((range m).filter fun a => a ≤ k ∧ k < a + n).card = triWeight (m + n - 1) k := by
  have e : (range m).filter (fun a => a ≤ k ∧ k < a + n) = Ico (k + 1 - n) (min m (k + 1)) := by
    ext a; simp only [mem_filter, mem_range, mem_Ico]; omega
  rw [e, Nat.card_Ico, triWeight]; omega

theorem tri_sum (f : Nat → R) (m n : Nat) (h1 : m ≤ n + 1) (h2 : n ≤ m + 1) :
    ∑ a ∈ range m, ∑ b ∈ range n, f (a + b) = ∑ k ∈ range (m + n - 1), (triWeight (m + n - 1) k : R) * f k := by
  have e : ∀ a ∈ range m, ∑ b ∈ range n, f (a + b) = ∑ k ∈ range (m + n - 1), if a ≤ k ∧ k < a + n then f k else 0 := fun a ha => by
    have ha := mem_range.1 ha
    rw [← sum_filter, show (range (m + n - 1)).filter (fun k => a ≤ k ∧ k < a + n) = Ico a (a + n) by
      ext k; simp only [mem_filter, mem_range, mem_Ico]; omega, sum_Ico_eq_sum_range, show a + n - a = n by omega]
  rw [sum_congr rfl e, sum_comm]
  refine sum_congr rfl fun k hk => ?_
  rw [← tri_count m n k h1 h2, ← sum_filter, sum_const, nsmul_eq_mul]

theorem trima_mean (m n : Nat) (hm : 1 ≤ m) (hn : 1 ≤ n) (h1 : m ≤ n + 1) (h2 : n ≤ m + 1) (x : Nat → R) (j : Nat) :
    trima (m + n - 1) x j = winMean m (winMean n x) j := by
  have w : (∑ k ∈ range (m + n - 1), (triWeight (m + n - 1) k : R)) = m * n := by
    have := tri_sum (fun _ => (1 : R)) m n h1 h2
    simpa using this.symm
  have hm' : (m : R) ≠ 0 := by positivity
  have hn' : (n : R) ≠ 0 := by positivity
  rw [trima, w, ← tri_sum (fun k => x (j + k)) m n h1 h2]
  simp only [winMean, winSum, ← sum_div, Nat.add_assoc]
  field_simp

/-- Partial: periods whose total weight does not fit an int. -/
theorem trima_sma_partial (o o1 o2 : Nat → R) (p : Nat) (hc : toInt (o 0) = .ok (p : Int)) (h1 : toInt (o1 0) = .ok (((p + 1) / 2 : Nat) : Int))
    (h2 : toInt (o2 0) = .ok ((p / 2 + 1 : Nat) : Int)) (hp : 1 ≤ p) (hb : ((p / 2 : Nat) + 1) * ((p / 2 : Nat) + 1) ≤ 2147483647) (xs : List R) :
    ∃ u w, Gives smaBatch o1 xs u ∧ Gives smaBatch o2 u w ∧ Gives trimaBatch o xs w := by
  obtain ⟨x, hx⟩ := exists_pre xs; rw [hx]
  refine ⟨_, _, sma_value o1 _ h1 (by omega) x _, sma_value o2 _ h2 (by omega) _ _, (trima_value_partial o p hc hp hb x _).trans ?_⟩
  congr 2
  refine pre_eq (by omega) fun j => ?_
  rw [← trima_mean (p / 2 + 1) ((p + 1) / 2) (by omega) (by omega) (by omega) (by omega), show p / 2 + 1 + (p + 1) / 2 - 1 = p by omega]

/-- The two averages of a series may be taken in either order. -/
theorem sma_sma (o1 o2 : Nat → R) (p q : Nat) (h1 : toInt (o1 0) = .ok (p : Int)) (h2 : toInt (o2 0) = .ok (q : Int)) (hp : 1 ≤ p) (hq : 1 ≤ q) (xs : List R) :
    ∃ u v w, Gives smaBatch o1 xs u ∧ Gives smaBatch o2 xs v ∧ Gives smaBatch o2 u w ∧ Gives smaBatch o1 v w := by
  obtain ⟨x, hx⟩ := exists_pre xs; rw [hx]
  refine ⟨_, _, _, sma_value o1 _ h1 hp x _, sma_value o2 _ h2 hq x _, sma_value o2 _ h2 hq _ _, (sma_value o1 _ h1 hp _ _).trans ?_⟩
  congr 2
  refine pre_eq (by omega) fun j => ?_
  simp only [winMean, winSum, ← sum_div]
  rw [sum_comm, div_div, div_div, mul_comm]
  congr 1
  exact sum_congr rfl fun a _ => sum_congr rfl fun b _ => by rw [Nat.add_right_comm]

theorem max_max (o1 o2 o : Nat → R) (p q : Nat) (h1 : toInt (o1 0) = .ok (p : Int)) (h2 : toInt (o2 0) = .ok (q : Int))
    (hc : toInt (o 0) = .ok ((p + q - 1 : Nat) : Int)) (hp : 1 ≤ p) (hq : 1 ≤ q) (xs : List R) :
    ∃ u w, Gives maxBatch o1 xs u ∧ Gives maxBatch o2 u w ∧ Gives maxBatch o xs w := by
  obtain ⟨x, hx⟩ := exists_pre xs; rw [hx]
  refine ⟨_, _, max_value o1 _ h1 hp x _, max_value o2 _ h2 hq _ _, (max_value o _ hc (by omega) x _).trans ?_⟩
  congr 2
  refine pre_eq (by omega) fun j => le_antisymm ?_ ?_
  · obtain ⟨k, a, b, e⟩ := winMax_mem (p + q - 1) (by omega) x j
    rw [e]
    exact (le_winMax p x (max j (k + 1 - p)) k (by omega) (by omega)).trans (le_winMax q (winMax p x) j (max j (k + 1 - p)) (by omega) (by omega))
  · obtain ⟨k, a, b, e⟩ := winMax_mem q hq (winMax p x) j
    obtain ⟨k', a', b', e'⟩ := winMax_mem p hp x k
    rw [e, e']
    exact le_winMax _ x j k' (by omega) (by omega)

theorem min_min (o1 o2 o : Nat → R) (p q : Nat) (h1 : toInt (o1 0) = .ok (p : Int)) (h2 : toInt (o2 0) = .ok (q : Int))
    (hc : toInt (o 0) = .ok ((p + q - 1 : Nat) : Int)) (hp : 1 ≤ p) (hq : 1 ≤ q) (xs : List R) :
    ∃ u w, Gives minBatch o1 xs u ∧ Gives minBatch o2 u w ∧ Gives minBatch o xs w := by
  obtain ⟨x, hx⟩ := exists_pre xs; rw [hx]
  refine ⟨_, _, min_value o1 _ h1 hp x _, min_value o2 _ h2 hq _ _, (min_value o _ hc (by omega) x _).trans ?_⟩
  congr 2
  refine pre_eq (by omega) fun j => le_antisymm ?_ ?_
  · obtain ⟨k, a, b, e⟩ := winMin_mem q hq (winMin p x) j
    obtain ⟨k', a', b', e'⟩ := winMin_mem p hp x k
    rw [e, e']
    exact Verif.winMin_le _ x j k' (by omega) (by omega)
  · obtain ⟨k, a, b, e⟩ := winMin_mem (p + q - 1) (by omega) x j
    rw [e]
    exact (Verif.winMin_le q (winMin p x) j (max j (k + 1 - p)) (by omega) (by omega)).trans (Verif.winMin_le p x (max j (k + 1 - p)) k (by omega) (by omega))

/-! ### Channels and bands -/

/-- Partial: periods up to 1. -/
theorem ce_pc_atr_partial [LawfulAbs R] [LawfulTrunc R] [LawfulRound R] (o : Nat → R) (p : Nat) (hc : toInt (o 0) = .ok (p : Int)) (hp : 2 ≤ p) (xs : List (HLC R))
    (hx : ∀ r ∈ xs, r.low ≤ r.high) : ∃ w c a, Gives ceBatch o xs w ∧ Gives pcBatch o (xs.map fun r => (⟨r.high, r.low⟩ : HL R)) c ∧ Gives atrBatch o xs a ∧
      w = List.zipWith (fun c a => (⟨c.high - o 1 * a, c.low + o 1 * a⟩ : HL R)) c a := by
  obtain ⟨x, e, hl⟩ := exists_pre_all (P := fun r : HLC R => r.low ≤ r.high) xs hx ⟨0, 0, 0⟩ le_rfl
  rw [e]
  refine ⟨_, _, _, ce_value_partial o p hc hp _ hl _, by rw [map_pre]; exact pc_value_partial o p hc hp _ _, atr_value o p hc (by omega) _ _, ?_⟩
  lists j

theorem kc_ema_tr [LawfulAbs R] (o : Nat → R) (p : Nat) (hc : toInt (o 0) = .ok (p : Int)) (ho : o 0 = (p : R)) (hp : 1 ≤ p) (h1 : 0 ≤ o 1) (xs : List (HLC R))
    (hx : ∀ r ∈ xs, r.low ≤ r.high) : ∃ w m t s, Gives kcBatch o xs w ∧ Gives emaBatch o (xs.map fun r => r.close) m ∧ Gives trBatch o xs t ∧ Gives emaBatch o t s ∧
      w = List.zipWith (fun m s => (⟨m - o 1 * s, m, m + o 1 * s⟩ : Bands R)) m s := by
  obtain ⟨x, e, hl⟩ := exists_pre_all (P := fun r : HLC R => r.low ≤ r.high) xs hx ⟨0, 0, 0⟩ le_rfl
  have h0 : 1 ≤ o 0 := by rw [ho]; exact_mod_cast hp
  rw [e]
  refine ⟨_, _, _, _, kc_value o h0 h1 _ hl _, by rw [map_pre]; exact ema_value o p hc hp _ _, tr_value o _ _, ema_value o p hc hp _ _, ?_⟩
  lists j
  simp only [ho, emaCoef]

/-- Partial: periods whose warm-up does not fit an int. `pc` refuses no period from 2 on. -/
theorem ichi_pc_partial [LawfulTrunc R] [LawfulRound R] (o o1 o2 o3 : Nat → R) (p9 p26 p52 : Nat) (h0 : toInt (o 0) = .ok (p9 : Int)) (h1 : toInt (o 1) = .ok (p26 : Int))
    (h2 : toInt (o 2) = .ok (p52 : Int)) (k1 : toInt (o1 0) = .ok (p9 : Int)) (k2 : toInt (o2 0) = .ok (p26 : Int)) (k3 : toInt (o3 0) = .ok (p52 : Int))
    (h9 : 2 ≤ p9) (h26 : p9 ≤ p26) (h52 : p26 ≤ p52) (hb : p52 - 1 + p26 ≤ 2147483647) (xs : List (HL R)) :
    ∃ w a b c, Gives ichiBatch o xs w ∧ Gives pcBatch o1 xs a ∧ Gives pcBatch o2 xs b ∧ Gives pcBatch o3 xs c ∧
      w.map (fun r => r.tenkan) = (a.drop (p52 + p26 - p9)).map (fun r => (r.high + r.low) / 2) ∧
      w.map (fun r => r.kijun) = (b.drop p52).map (fun r => (r.high + r.low) / 2) ∧
      w.map (fun r => r.spanA) = (List.zipWith (fun a b => ((a.high + a.low) / 2 + (b.high + b.low) / 2) / 2) (a.drop (p52 - p9)) (b.drop (p52 - p26))).take w.length ∧
      w.map (fun r => r.spanB) = (c.take w.length).map (fun r => (r.high + r.low) / 2) := by
  obtain ⟨x, hx⟩ := exists_pre xs; rw [hx]
  refine ⟨_, _, _, _, ichi_value_partial o p9 p26 p52 h0 h1 h2 (by omega) h26 h52 hb (by omega) x _, pc_value_partial o1 p9 k1 h9 x _,
    pc_value_partial o2 p26 k2 (by omega) x _, pc_value_partial o3 p52 k3 (by omega) x _, ?_, ?_, ?_, ?_⟩
  · lists j
    rw [midChannel, show p52 - 1 + p26 + j + 1 - p9 = j + (p52 + p26 - p9) by omega]
  · lists j
    rw [midChannel, show p52 - 1 + p26 + j + 1 - p26 = j + p52 by omega]
  · simp only [drop_pre, map_pre, zip_pre, length_pre, take_pre]
    refine pre_eq (by omega) fun j => ?_
    rw [midChannel, midChannel, show p52 - 1 + j + 1 - p9 = j + (p52 - p9) by omega, show p52 - 1 + j + 1 - p26 = j + (p52 - p26) by omega]
  · simp only [map_pre, length_pre, take_pre]
    refine pre_eq (by omega) fun j => ?_
    rw [midChannel, show p52 - 1 + j + 1 - p52 = j by omega]

theorem abands_sma (o : Nat → R) (p : Nat) (hc : toInt (o 0) = .ok (p : Int)) (hp : 1 ≤ p) (xs : List (HLC R)) :
    ∃ w m, Gives abandsBatch o xs w ∧ Gives smaBatch o (xs.map fun r => r.close) m ∧ w.map (fun r => r.middle) = m := by
  obtain ⟨x, hx⟩ := exists_pre xs; rw [hx]
  refine ⟨_, _, abands_value o p hc hp x _, by rw [map_pre]; exact sma_value o p hc hp _ _, ?_⟩
  lists j

/-! ### Momentum and dispersion -/

theorem rsi_wilders (o : Nat → R) (p : Nat) (hc : toInt (o 0) = .ok (p : Int)) (hp : 1 ≤ p) (xs : List R) :
    ∃ w u d, Gives rsiBatch o xs w ∧ Gives wildersBatch o (List.zipWith (fun a b => max (b - a) 0) xs xs.tail) u ∧
      Gives wildersBatch o (List.zipWith (fun a b => max (a - b) 0) xs xs.tail) d ∧ w = List.zipWith (fun u d => if u = 0 then 0 else 100 * (u / (u + d))) u d := by
  obtain ⟨x, hx⟩ := exists_pre xs; rw [hx, ← List.drop_one, drop_pre, zip_pre, zip_pre]
  refine ⟨_, _, _, rsi_value o p hc hp x _, wilders_value o p hc hp _ _, wilders_value o p hc hp _ _, ?_⟩
  lists j

theorem cmo_sum (o : Nat → R) (p : Nat) (hc : toInt (o 0) = .ok (p : Int)) (hp : 1 ≤ p) (xs : List R) :
    ∃ w u d, Gives cmoBatch o xs w ∧ Gives sumBatch o (List.zipWith (fun a b => max (b - a) 0) xs xs.tail) u ∧
      Gives sumBatch o (List.zipWith (fun a b => max (a - b) 0) xs xs.tail) d ∧ w = List.zipWith (fun u d => if u + d = 0 then 0 else 100 * (u - d) / (u + d)) u d := by
  obtain ⟨x, hx⟩ := exists_pre xs; rw [hx, ← List.drop_one, drop_pre, zip_pre, zip_pre]
  refine ⟨_, _, _, cmo_value o p hc hp x _, sum_value o p hc hp _ _, sum_value o p hc hp _ _, ?_⟩
  lists j

/-- Partial: periods whose warm-up does not fit an int. -/
theorem stochrsi_rsi_partial (o : Nat → R) (p : Nat) (hc : toInt (o 0) = .ok (p : Int)) (hp : 2 ≤ p) (hb : p ≤ 1073741823) (xs : List R) :
    ∃ w r u d, Gives stochrsiBatch o xs w ∧ Gives rsiBatch o xs r ∧ Gives minBatch o r d ∧ Gives maxBatch o r u ∧
      w = List.zipWith (fun a v => if a.2 - a.1 = 0 then 0 else (v - a.1) / (a.2 - a.1)) (List.zip d u) (r.drop (p - 1)) := by
  obtain ⟨x, hx⟩ := exists_pre xs; rw [hx]
  obtain ⟨r, hr, hs⟩ := stochrsi_value_partial o p hc hp hb x xs.length
  refine ⟨_, _, _, _, hs, hr, min_value o p hc (by omega) _ _, max_value o p hc (by omega) _ _, ?_⟩
  simp only [List.zip]
  lists j

theorem er_mom_sum [LawfulAbs R] (o o1 : Nat → R) (p : Nat) (hc : toInt (o 0) = .ok (p : Int)) (hc1 : toInt (o1 0) = .ok (1 : Int)) (hp : 1 ≤ p) (xs : List R) :
    ∃ w m d s, Gives erBatch o xs w ∧ Gives momBatch o xs m ∧ Gives momBatch o1 xs d ∧ Gives sumBatch o (d.map fun v => |v|) s ∧
      w = List.zipWith (fun m s => if m = 0 then 0 else |m| / s) m s := by
  obtain ⟨x, hx⟩ := exists_pre xs; rw [hx]
  refine ⟨_, _, _, _, er_value o p hc hp x _, mom_value o p hc hp x _, mom_value o1 1 hc1 le_rfl x _, by rw [map_pre]; exact sum_value o p hc hp _ _, ?_⟩
  lists j
  simp only [efficiency, winSum, sub_eq_zero]

theorem vhf_max_min_sum [LawfulAbs R] (o o1 : Nat → R) (p : Nat) (hc : toInt (o 0) = .ok (p : Int)) (hc1 : toInt (o1 0) = .ok (1 : Int)) (hp : 1 ≤ p) (xs : List R) :
    ∃ w u l d s, Gives vhfBatch o xs w ∧ Gives maxBatch o xs u ∧ Gives minBatch o xs l ∧ Gives momBatch o1 xs d ∧ Gives sumBatch o (d.map fun v => |v|) s ∧
      w = List.zipWith (fun r s => if r = 0 then 0 else r / s) (List.zipWith (· - ·) (u.drop 1) (l.drop 1)) s := by
  obtain ⟨x, hx⟩ := exists_pre xs; rw [hx]
  refine ⟨_, _, _, _, _, vhf_value o p hc hp x _, max_value o p hc hp x _, min_value o p hc hp x _, mom_value o1 1 hc1 le_rfl x _, by rw [map_pre]; exact sum_value o p hc hp _ _, ?_⟩
  lists j

theorem volatility_roc_stddev [LawfulSqrt R] (o o1 : Nat → R) (p : Nat) (hc : toInt (o 0) = .ok (p : Int)) (hc1 : toInt (o1 0) = .ok (1 : Int)) (hp : 1 ≤ p) (xs : List R) :
    ∃ w r s, Gives volatilityBatch o xs w ∧ Gives rocBatch o1 xs r ∧ Gives stddevBatch o r s ∧ w = s.map (fun v => CMath.sqrt (252 : R) * v) := by
  obtain ⟨x, hx⟩ := exists_pre xs; rw [hx]
  refine ⟨_, _, _, volatility_value o p hc hp x _, roc_value o1 1 hc1 le_rfl x _, stddev_value o p hc hp _ _, ?_⟩
  lists j

/-- Partial: periods whose warm-up does not fit an int. -/
theorem cci_typprice_sma_md_partial [LawfulAbs R] (o : Nat → R) (p : Nat) (hc : toInt (o 0) = .ok (p : Int)) (hp : 1 ≤ p) (hb : p * 2 ≤ 2147483647) (xs : List (HLC R)) :
    ∃ w t m d, Gives cciBatch o xs w ∧ Gives typpriceBatch o xs t ∧ Gives smaBatch o t m ∧ Gives mdBatch o t d ∧
      w = List.zipWith (fun v d => if d = 0 then 0 else v / (15 / 1000 * d)) (List.zipWith (· - ·) (t.drop (2 * (p - 1))) (m.drop (p - 1))) (d.drop (p - 1)) := by
  obtain ⟨x, hx⟩ := exists_pre xs; rw [hx]
  refine ⟨_, _, _, _, cci_value_partial o p hc hp hb x _, typprice_value o x _, sma_value o p hc hp _ _, md_value o p hc hp _ _, ?_⟩
  lists j
  rw [show j + 2 * (p - 1) = j + (p - 1) + (p - 1) by omega]

/-- Partial: period 1, and periods whose warm-up does not fit an int. -/
theorem cvi_ema_roc_partial (o : Nat → R) (p : Nat) (hc : toInt (o 0) = .ok (p : Int)) (hp : 2 ≤ p) (hb : p * 2 ≤ 2147483647) (xs : List (HL R)) :
    ∃ w e r, Gives cviBatch o xs w ∧ Gives emaBatch o (xs.map fun r => r.high - r.low) e ∧ Gives rocBatch o e r ∧ w = (r.drop (p - 1)).map (fun v => 100 * v) := by
  obtain ⟨x, hx⟩ := exists_pre xs; rw [hx]
  refine ⟨_, _, _, cvi_value_partial o p hc hp hb x _, by rw [map_pre]; exact ema_value o p hc (by omega) _ _, roc_value o p hc (by omega) _ _, ?_⟩
  lists j
  rw [show j + (p * 2 - 1) - p = j + (p - 1) by omega, show j + (p - 1) + p = j + (p * 2 - 1) by omega]
  split
  · rename_i h; rw [h]; simp
  · rw [mul_div_assoc]

/-- Partial: periods whose warm-up does not fit an int. -/
theorem mass_ema_sum_partial (o o9 : Nat → R) (p : Nat) (hc : toInt (o 0) = .ok (p : Int)) (h9 : toInt (o9 0) = .ok (9 : Int)) (hp : 1 ≤ p) (hb : 15 + p ≤ 2147483647)
    (xs : List (HL R)) : ∃ w e e2, Gives massBatch o xs w ∧ Gives emaBatch o9 (xs.map fun r => r.high - r.low) e ∧ Gives emaBatch o9 (e.drop 8) e2 ∧
      Gives sumBatch o (List.zipWith (· / ·) (e.drop 16) (e2.drop 8)) w := by
  obtain ⟨x, hx⟩ := exists_pre xs; rw [hx]
  refine ⟨_, _, _, mass_value_partial o p hc hp hb x _, by rw [map_pre]; exact ema_value o9 9 h9 (by omega) _ _, by rw [drop_pre]; exact ema_value o9 9 h9 (by omega) _ _, ?_⟩
  rw [drop_pre, drop_pre, zip_pre]
  refine (sum_value o p hc hp _ _).trans ?_
  congr 2
  exact pre_eq (by omega) fun j => rfl

/-- Partial: periods whose warm-up does not fit an int. -/
theorem copp_roc_wma_partial [LawfulTrunc R] [LawfulRound R] (o o1 o2 o3 : Nat → R) (s l w : Nat) (h0 : o 0 = ((s : Int) : R)) (h1 : o 1 = ((l : Int) : R))
    (h2 : o 2 = ((w : Int) : R)) (k1 : toInt (o1 0) = .ok (s : Int)) (k2 : toInt (o2 0) = .ok (l : Int)) (k3 : toInt (o3 0) = .ok (w : Int)) (hs : 1 ≤ s) (hl' : s ≤ l)
    (hw : 1 ≤ w) (hb : l + w ≤ 2147483646) (hww : w * (w + 1) ≤ 2147483647) (xs : List R) (hx : ∀ v ∈ xs, v ≠ 0) :
    ∃ c u v, Gives coppBatch o xs c ∧ Gives rocBatch o1 xs u ∧ Gives rocBatch o2 xs v ∧ Gives wmaBatch o3 (List.zipWith (fun u v => 100 * (u + v) / 2) (u.drop (l - s)) v) c := by
  obtain ⟨x, e, hl⟩ := exists_pre_all (P := fun v : R => v ≠ 0) xs hx 1 one_ne_zero
  rw [e]
  refine ⟨_, _, _, copp_value_partial o s l w h0 h1 h2 hs hl' hw hb x _, roc_value o1 s k1 hs x _, roc_value o2 l k2 (by omega) x _, ?_⟩
  rw [drop_pre, zip_pre]
  refine (wma_value_partial o3 w k3 hw hww _ _).trans ?_
  congr 2
  refine pre_eq (by omega) fun j => ?_
  have m : ∀ k, meanChange s l x (j + k + l) = 100 * ((if x (j + k + (l - s)) = 0 then 0 else (x (j + k + (l - s) + s) - x (j + k + (l - s))) / x (j + k + (l - s))) +
      if x (j + k) = 0 then 0 else (x (j + k + l) - x (j + k)) / x (j + k)) / 2 := fun k => by
    rw [meanChange, if_neg (by simp only [not_or]; exact ⟨hl _, hl _⟩), if_neg (hl _), if_neg (hl _), show j + k + l - s = j + k + (l - s) by omega,
      show j + k + l - l = j + k by omega, show j + k + (l - s) + s = j + k + l by omega]
  simp only [wma, winWSum, m]
end

/-! ### Instances -/

example (xs : List Rat) := trima_sma_partial (opts [4]) (opts [2]) (opts [3]) 4 (by decide +kernel) (by decide +kernel) (by decide +kernel) (by decide) (by decide) xs
example : Gives (R := Rat) smaBatch (opts [2]) [1, 2, 4, 8, 3] [3/2, 3, 6, 11/2] ∧ Gives (R := Rat) smaBatch (opts [3]) [3/2, 3, 6, 11/2] [7/2, 29/6] ∧
    Gives (R := Rat) trimaBatch (opts [4]) [1, 2, 4, 8, 3] [7/2, 29/6] := by unfold Gives; decide +kernel
example (xs : List Rat) := max_max (opts [2]) (opts [3]) (opts [4]) 2 3 (by decide +kernel) (by decide +kernel) (by decide +kernel) (by decide) (by decide) xs
example : Gives (R := Rat) maxBatch (opts [2]) [3, 1, 2, 5, 4] [3, 2, 5, 5] ∧ Gives (R := Rat) maxBatch (opts [3]) [3, 2, 5, 5] [5, 5] ∧
    Gives (R := Rat) maxBatch (opts [4]) [3, 1, 2, 5, 4] [5, 5] := by unfold Gives; decide +kernel
example := ce_pc_atr_partial (R := Rat) (opts [2, 3]) 2 (by decide +kernel) (by decide) [⟨5, 3, 4⟩, ⟨6, 4, 5⟩, ⟨7, 4, 6⟩] (by decide +kernel)
example := kc_ema_tr (R := Rat) (opts [2, 3]) 2 (by decide +kernel) (by decide +kernel) (by decide) (by decide +kernel) [⟨5, 3, 4⟩, ⟨6, 4, 5⟩, ⟨7, 4, 6⟩] (by decide +kernel)
example (xs : List (HL Rat)) := ichi_pc_partial (opts [2, 3, 4]) (opts [2]) (opts [3]) (opts [4]) 2 3 4 (by decide +kernel) (by decide +kernel) (by decide +kernel)
  (by decide +kernel) (by decide +kernel) (by decide +kernel) (by decide) (by decide) (by decide) (by decide) xs
example (xs : List Rat) := rsi_wilders (opts [3]) 3 (by decide +kernel) (by decide) xs
example : Gives (R := Rat) rsiBatch (opts [2]) [1, 3, 2, 2] [200/3, 200/3] ∧ Gives (R := Rat) wildersBatch (opts [2]) [2, 0, 0] [1, 1/2] ∧
    Gives (R := Rat) wildersBatch (opts [2]) [0, 1, 0] [1/2, 1/4] := by unfold Gives; decide +kernel
example (xs : List Rat) := stochrsi_rsi_partial (opts [3]) 3 (by decide +kernel) (by decide) (by decide) xs
example (xs : List Rat) := vhf_max_min_sum (opts [3]) (opts [1]) 3 (by decide +kernel) (by decide +kernel) (by decide) xs
example (xs : List (HLC Rat)) := cci_typprice_sma_md_partial (opts [3]) 3 (by decide +kernel) (by decide) (by decide) xs
example (xs : List (HL Rat)) := cvi_ema_roc_partial (opts [3]) 3 (by decide +kernel) (by decide) (by decide) xs
example (xs : List (HL Rat)) := mass_ema_sum_partial (opts [3]) (opts [9]) 3 (by decide +kernel) (by decide +kernel) (by decide) (by decide) xs
example := copp_roc_wma_partial (R := Rat) (opts [1, 2, 2]) (opts [1]) (opts [2]) (opts [2]) 1 2 2 (by decide +kernel) (by decide +kernel) (by decide +kernel)
  (by decide +kernel) (by decide +kernel) (by decide +kernel) (by decide) (by decide) (by decide) (by decide) (by decide) [1, 2, 4, 3, 5] (by decide +kernel)

end Verif
