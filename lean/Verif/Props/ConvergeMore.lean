/- C76, continued: directional movement, volume force, mass index and stochastic momentum when the bars stop moving. -/
import Verif.Props.Converge
import Verif.Props.Direction
import Verif.Props.Chan
import Verif.Props.Trail
import Verif.Props.Extremum
import Verif.Props.Fading

namespace Verif
open Spec
open Converge (Tends follows approaches)
set_option linter.unusedSectionVars false

section
variable {R : Type} [Field R] [LinearOrder R] [IsStrictOrderedRing R] [Archimedean R] [CMath R]

theorem moves_rest {x : Nat → HL R} {c : HL R} (hx : Rests x c) : Rests (plusDM x) 0 ∧ Rests (minusDM x) 0 := by
  obtain ⟨m, hm⟩ := hx
  constructor
  · refine ⟨m, fun i hi => ?_⟩
    unfold plusDM upMove downMove
    rw [hm i hi, hm (i + 1) (by omega)]
    simp
  · refine ⟨m, fun i hi => ?_⟩
    unfold minusDM upMove downMove
    rw [hm i hi, hm (i + 1) (by omega)]
    simp

theorem wilderSum_tends (p : Nat) (hp : 1 ≤ p) {d : Nat → R} {V : R} (hd : Tends d V) : Tends (wilderSum p d) (V * p) := by
  have hp' : (1 : R) ≤ p := by exact_mod_cast hp
  have hi : 1 / (p : R) ≤ 1 := by rw [div_le_one (by linarith)]; exact hp'
  have h0 : 0 < 1 / (p : R) := by positivity
  have := Converge.first (f := wilderSum p d) (v := fun n => d (n + (p - 1))) (r := 1 - 1 / (p : R)) (abs_lt.2 ⟨by linarith, by linarith⟩)
    (fun n => by rw [wilderSum]; ring) (hd.shift (p - 1))
  rwa [show V / (1 - (1 - 1 / (p : R))) = V * p by field_simp; ring] at this

/-- dm: both movements fade away. -/
theorem dm_rests (o : Nat → R) (p : Nat) (hc : toInt (o 0) = .ok (p : Int)) (hp : 1 ≤ p) (x : Nat → HL R) (c : HL R) (hx : Rests x c) :
    Approaches dmBatch o (p - 1) x (·.plus) 0 ∧ Approaches dmBatch o (p - 1) x (·.minus) 0 := by
  have a := wilderSum_tends p hp (.of_rests (moves_rest hx).1)
  have b := wilderSum_tends p hp (.of_rests (moves_rest hx).2)
  rw [zero_mul] at a b
  exact ⟨approaches 0 (fun N _ => dm_value o p hc hp x N) a, approaches 0 (fun N _ => dm_value o p hc hp x N) b⟩

/-- di: both fade away if the bar that is repeated has a range. -/
theorem di_rests_partial [LawfulAbs R] (o : Nat → R) (p : Nat) (hc : toInt (o 0) = .ok (p : Int)) (hp : 1 ≤ p) (x : Nat → HLC R) (c : HLC R) (hx : Rests x c)
    (hb : c.low ≤ c.close ∧ c.close ≤ c.high) (h0 : c.low ≠ c.high) :
    Approaches diBatch o (p - 1) x (·.plus) 0 ∧ Approaches diBatch o (p - 1) x (·.minus) 0 := by
  have hx' : Rests (fun k => (⟨(x k).high, (x k).low⟩ : HL R)) ⟨c.high, c.low⟩ := by
    obtain ⟨m, hm⟩ := hx; exact ⟨m, fun i hi => by simp only [hm i hi]⟩
  have a := (wilderSum_tends p hp (.of_rests (moves_rest hx').1)).mul_const 100
  have b := (wilderSum_tends p hp (.of_rests (moves_rest hx').2)).mul_const 100
  rw [zero_mul, mul_zero] at a b
  have t := wilderSum_tends p hp ((Tends.of_rests (trueRange_rests hx hb)).shift 1)
  have hp' : (1 : R) ≤ p := by exact_mod_cast hp
  have ht : (c.high - c.low) * (p : R) ≠ 0 := mul_ne_zero (sub_ne_zero.2 h0.symm) (by linarith)
  have e {u w : R} : (if u = 0 then 0 else 100 * u / w) = 100 * u / w := by
    split
    · rename_i h; rw [h]; simp
    · rfl
  constructor
  · exact approaches 0 (fun N _ => di_value o p hc hp x N) ((a.div t ht).congr 0 fun n _ => e)
  · exact approaches 0 (fun N _ => di_value o p hc hp x N) ((b.div t ht).congr 0 fun n _ => e)

/-- dx keeps its last reading: both movements fade at the same rate. -/
theorem dx_stays [LawfulAbs R] (p : Nat) (hp : 1 ≤ p) (x : Nat → HL R) (c : HL R) (hx : Rests x c) :
    ∃ m, ∀ j, m ≤ j → dxOf (wilderSum p (plusDM x) (j + 1)) (wilderSum p (minusDM x) (j + 1)) = dxOf (wilderSum p (plusDM x) j) (wilderSum p (minusDM x) j) := by
  obtain ⟨⟨m1, h1⟩, ⟨m2, h2⟩⟩ := moves_rest hx
  refine ⟨m1 + m2 + 1, fun j hj => ?_⟩
  have hp' : (1 : R) ≤ p := by exact_mod_cast hp
  have e {d : Nat → R} (hd : d (j + (p - 1)) = 0) : wilderSum p d (j + 1) = (1 - 1 / (p : R)) * wilderSum p d j := by
    rw [wilderSum, hd]; ring
  rw [e (h1 _ (by omega)), e (h2 _ (by omega))]
  rcases eq_or_ne p 1 with rfl | hne
  · obtain ⟨i, rfl⟩ : ∃ i, j = i + 1 := ⟨j - 1, by omega⟩
    have z1 : wilderSum 1 (plusDM x) (i + 1) = 0 := by rw [wilderSum, h1 _ (by omega)]; simp
    have z2 : wilderSum 1 (minusDM x) (i + 1) = 0 := by rw [wilderSum, h2 _ (by omega)]; simp
    rw [z1, z2, mul_zero]
  · have h2p : (2 : R) ≤ p := by exact_mod_cast (show 2 ≤ p by omega)
    have ha : 0 < 1 - 1 / (p : R) := by
      have : 1 / (p : R) ≤ 1 / 2 := one_div_le_one_div_of_le (by norm_num) h2p
      linarith
    unfold dxOf
    rw [← mul_add, ← mul_sub, abs_mul, abs_of_pos ha, mul_div_mul_left _ _ ha.ne']
    simp only [mul_eq_zero, ha.ne', false_or]

/-- dx keeps its last reading. -/
theorem dx_freezes [LawfulAbs R] (o : Nat → R) (p : Nat) (hc : toInt (o 0) = .ok (p : Int)) (hp : 1 ≤ p) (x : Nat → HL R) (c : HL R) (hx : Rests x c) :
    Freezes dxBatch o (p - 1) x := by
  obtain ⟨m, hm⟩ := dx_stays p hp x c hx
  exact freezes_of m (dx_value o p hc hp) hm

theorem dx_rest_value [LawfulAbs R] (p : Nat) (hp : 1 ≤ p) (x : Nat → HL R) (c : HL R) (hx : Rests x c) :
    ∃ L, Rests (fun j => dxOf (wilderSum p (plusDM x) j) (wilderSum p (minusDM x) j)) L := by
  obtain ⟨m, hm⟩ := dx_stays p hp x c hx
  refine ⟨dxOf (wilderSum p (plusDM x) m) (wilderSum p (minusDM x) m), m, fun i hi => ?_⟩
  induction i, hi using Nat.le_induction with
  | base => rfl
  | succ i hi ih => exact (hm i hi).trans ih

/-- adx and adxr approach the reading at which dx froze. Partial: `start` is computed without overflow. -/
theorem adx_rests_partial [LawfulAbs R] (o : Nat → R) (p : Nat) (hc : toInt (o 0) = .ok (p : Int)) (hp : 2 ≤ p) (hb : (p - 1) * 3 ≤ 2147483647)
    (x : Nat → HL R) (c : HL R) (hx : Rests x c) :
    ∃ L, Approaches dxBatch o (p - 1) x id L ∧ Approaches adxBatch o ((p - 1) * 2) x id L ∧ Approaches adxrBatch o ((p - 1) * 3) x id L := by
  obtain ⟨L, hL⟩ := dx_rest_value p (by omega) x c hx
  have w := Converge.wilder p (by omega) (.of_rests hL)
  refine ⟨L, approaches 0 (fun N _ => dx_value o p hc (by omega) x N) (.of_rests hL),
    approaches 0 (fun N _ => adx_value_partial o p hc hp (by omega) x N) w, approaches 0 (fun N _ => adxr_value_partial o p hc hp hb x N) ?_⟩
  have := ((w.shift (p - 1)).add w).mul_const (1 / 2)
  rw [show (1 : R) / 2 * (L + L) = L by ring] at this
  exact this.congr 0 fun n _ => by simp only [id]; ring

theorem klinger_rests {x : Nat → HLCV R} {c : HLCV R} (hx : Rests x c) : ∃ V, Tends (klingerForce x) V := by
  obtain ⟨m, hm⟩ := hx
  by_cases h0 : c.high - c.low = 0
  · exact ⟨0, .of_rests ⟨m, fun i hi => by
      unfold klingerForce dailyRange
      rw [hm (i + 1) (by omega), if_pos h0]⟩⟩
  · have tr : ∀ n, klingerTrend x (n + m) = klingerTrend x m := fun n => by
      induction n with
      | zero => rw [Nat.zero_add]
      | succ n ih =>
        rw [show n + 1 + m = (n + m) + 1 by omega, klingerTrend]
        unfold hlc
        rw [hm (n + m) (by omega), hm (n + m + 1) (by omega), if_neg (lt_irrefl _), if_neg (lt_irrefl _), ih]
    have cm : ∀ n, klingerCm x (n + m) = klingerCm x m + n * (c.high - c.low) := fun n => by
      induction n with
      | zero => simp
      | succ n ih =>
        rw [show n + 1 + m = (n + m) + 1 by omega, klingerCm, if_pos (by rw [show n + m + 1 = (n + 1) + m by omega, tr, tr]), ih]
        unfold dailyRange
        rw [hm (n + m + 1) (by omega)]
        push_cast
        ring
    have q : Tends (fun n => (c.high - c.low) / klingerCm x (n + m)) 0 := by
      intro ε hε
      obtain ⟨k, hk⟩ := exists_nat_gt (1 / ε + |klingerCm x m / (c.high - c.low)|)
      refine ⟨k, fun n hn => ?_⟩
      show |(c.high - c.low) / klingerCm x (n + m) - 0| ≤ ε
      rw [cm, sub_zero]
      have e : klingerCm x m + n * (c.high - c.low) = (klingerCm x m / (c.high - c.low) + n) * (c.high - c.low) := by field_simp
      rw [e, mul_comm, div_mul_cancel_left₀ h0, abs_inv]
      have hn' : (k : R) ≤ n := by exact_mod_cast hn
      have l := neg_abs_le (klingerCm x m / (c.high - c.low))
      have h1 : 1 / ε ≤ klingerCm x m / (c.high - c.low) + n := by linarith
      have h2 : 0 < 1 / ε := by positivity
      rw [abs_of_pos (by linarith)]
      exact inv_le_of_inv_le₀ hε (by rwa [one_div] at h1)
    refine ⟨(c.volume * 100 * if klingerTrend x m = -1 then -1 else 1) * 1, .of_shift m ?_⟩
    have a : Tends (fun n => |2 * ((c.high - c.low) / klingerCm x (n + 1 + m)) - 1|) 1 := by
      have := ((q.shift 1).mul_const 2)
      rw [mul_zero] at this
      intro ε hε
      obtain ⟨k, hk⟩ := this ε hε
      refine ⟨k, fun n hn => ?_⟩
      have := hk n hn
      rw [sub_zero] at this
      have b := abs_abs_sub_abs_le_abs_sub (2 * ((c.high - c.low) / klingerCm x (n + 1 + m)) - 1) (-1)
      rw [abs_neg, abs_one, sub_neg_eq_add, sub_add_cancel] at b
      exact b.trans this
    refine (a.mul_const _).congr 0 fun n _ => ?_
    unfold klingerForce dailyRange
    rw [hm (n + m + 1) (by omega), if_neg h0, show n + m + 1 = n + 1 + m by omega, tr]
    ring

/-- kvo: when the bars and their volume stop moving, whatever happened before. -/
theorem kvo_rests [LawfulAbs R] (o : Nat → R) (s p : Nat) (hs : toInt (o 0) = .ok (s : Int)) (hc : toInt (o 1) = .ok (p : Int)) (h1 : 1 ≤ s) (h2 : s ≤ p)
    (x : Nat → HLCV R) (c : HLCV R) (hx : Rests x c) : Approaches kvoBatch o 1 x id 0 := by
  obtain ⟨V, hV⟩ := klinger_rests hx
  refine approaches 0 (fun N _ => kvo_value o s p hs hc h1 h2 x N) ?_
  have e {p : Nat} (hp : 1 ≤ p) := Converge.ema (Converge.emaCoef_pos p) (Converge.emaCoef_lt p hp) hV
  have := (e h1).sub (e (p := p) (by omega))
  rwa [sub_self] at this

theorem winSum_tends (p : Nat) {f : Nat → R} {L : R} (hf : Tends f L) : Tends (winSum p f) (p * L) := by
  induction p with
  | zero =>
    rw [Nat.cast_zero, zero_mul]
    exact (Tends.const (0 : R)).congr 0 fun n _ => by simp [winSum]
  | succ p ih =>
    have := ih.add (hf.shift p)
    rw [show ((p + 1 : Nat) : R) * L = p * L + L by push_cast; ring]
    exact this.congr 0 fun n _ => by rw [winSum, Finset.sum_range_succ]; rfl

/-- mass approaches its period if the bar that is repeated has a range. Partial: `start` is computed without overflow. -/
theorem mass_rests_partial (o : Nat → R) (p : Nat) (hc : toInt (o 0) = .ok (p : Int)) (hp : 1 ≤ p) (hb : 15 + p ≤ 2147483647) (x : Nat → HL R) (c : HL R)
    (hx : Rests x c) (h0 : c.high - c.low ≠ 0) : Approaches massBatch o (15 + p) x id (p : R) := by
  refine approaches 0 (fun N _ => mass_value_partial o p hc hp hb x N) ?_
  have e : Tends (Spec.ema (emaCoef 9) fun k => (x k).high - (x k).low) (c.high - c.low) :=
    Converge.ema (Converge.emaCoef_pos 9) (Converge.emaCoef_lt 9 (by omega)) (.of_rests (by
      obtain ⟨m, hm⟩ := hx; exact ⟨m, fun i hi => by show (x i).high - (x i).low = _; rw [hm i hi]⟩))
  have e2 := Converge.ema (Converge.emaCoef_pos 9) (Converge.emaCoef_lt 9 (by omega)) (e.shift 8)
  have q := (e.shift 16).quot (e2.shift 8) h0
  rw [div_self h0] at q
  have := winSum_tends p q
  rwa [mul_one] at this

/-- smi approaches the place of the close in the bar that is repeated, if it has a range. Partial: whole-number windows from 2 on. -/
theorem smi_rests_partial [LawfulTrunc R] [LawfulRound R] [LawfulCeil R] (o : Nat → R) (q : Nat) (h0 : o 0 = (q : R)) (hq : 2 ≤ q) (hb : q ≤ 2147483647) (h1 : 1 ≤ o 1) (h2 : 1 ≤ o 2)
    (x : Nat → HLC R) (c : HLC R) (hx : Rests x c) (hr : c.high - c.low ≠ 0) :
    Approaches smiBatch o (q - 1) x id (100 * ((c.close - (c.high + c.low) / 2) / ((c.high - c.low) / 2))) := by
  refine approaches 0 (fun N _ => smi_value_partial o q h0 hq hb h1 h2 x N) ?_
  obtain ⟨m, hm⟩ := hx
  have wM : ∀ k, m ≤ k → winMax q (fun i => (x i).high) k = c.high := fun k hk => by
    obtain ⟨i, hi, _, e⟩ := winMax_mem q (by omega) (fun i => (x i).high) k
    rw [e, hm i (by omega)]
  have wm : ∀ k, m ≤ k → winMin q (fun i => (x i).low) k = c.low := fun k hk => by
    obtain ⟨i, hi, _, e⟩ := winMin_mem q (by omega) (fun i => (x i).low) k
    rw [e, hm i (by omega)]
  have a : Tends (offMiddle q x) (c.close - (c.high + c.low) / 2) := .of_rests ⟨m, fun i hi => by
    rw [offMiddle, wM i hi, wm i hi, hm _ (by omega)]⟩
  have b : Tends (fullRange q x) (c.high - c.low) := .of_rests ⟨m, fun i hi => by rw [fullRange, wM i hi, wm i hi]⟩
  have s {f : Nat → R} {L : R} (hf : Tends f L) : Tends (smooth2 (o 1) (o 2) f) L := by
    have l {r : R} (hr : 1 ≤ r) : 0 < 2 / (1 + r) ∧ 2 / (1 + r) < 2 := ⟨by positivity, by rw [div_lt_iff₀ (by linarith)]; linarith⟩
    exact Converge.ema (l h2).1 (l h2).2 (Converge.ema (l h1).1 (l h1).2 hf)
  have d := (s b).mul_const (1 / 2)
  have t := ((s a).quot d (mul_ne_zero (by norm_num) hr)).mul_const 100
  rw [show (1 : R) / 2 * (c.high - c.low) = (c.high - c.low) / 2 by ring] at t
  refine t.congr 0 fun n _ => ?_
  simp only [id, stochMomentum]
  split
  · rename_i h; rw [h]; simp
  · rw [show (1 : R) / 2 * smooth2 (o 1) (o 2) (fullRange q x) n = smooth2 (o 1) (o 2) (fullRange q x) n / 2 by ring]

theorem sqrt_zero' [LawfulSqrt R] : CMath.sqrt (0 : R) = 0 := by
  have := LawfulSqrt.sqrt_sq (0 : R) le_rfl
  simpa using this

theorem winVar_rest (p : Nat) {x : Nat → R} {c : R} {j : Nat} (h : ∀ k, j ≤ k → x k = c) (hp : 1 ≤ p) : winVar p x j = 0 := by
  have hp' : (p : R) ≠ 0 := by exact_mod_cast (show p ≠ 0 by omega)
  unfold winVar winMean winSum
  simp only [h _ (Nat.le_add_right j _), Finset.sum_const, Finset.card_range, nsmul_eq_mul, mul_div_cancel_left₀ c hp', sub_self]
  simp

theorem vidya_stays [LawfulSqrt R] (s l : Nat) (h1 : 1 ≤ s) (a : R) {x : Nat → R} {c : R} {m : Nat} (hx : ∀ i, m ≤ i → x i = c) (j : Nat) (hj : m ≤ j) :
    Spec.vidya s l a x (j + 1) = Spec.vidya s l a x j := by
  rw [Spec.vidya, vidyaWeight, winVar_rest s (c := c) (fun k hk => hx k (by omega)) h1, sqrt_zero', zero_div, zero_mul, zero_mul, add_zero]

/-- vidya keeps its last reading when the price stops moving, wherever that was: its weight is then zero. Partial: `long_period - 1` prices (see `vidya_violates`). -/
theorem vidya_freezes_partial [LawfulSqrt R] (o : Nat → R) (s l : Nat) (hs : toInt (o 0) = .ok (s : Int)) (hl : toInt (o 1) = .ok (l : Int))
    (h1 : 1 ≤ s) (h2 : s ≤ l) (h3 : 2 ≤ l) (ha : 0 ≤ o 2) (ha' : o 2 ≤ 1) (x : Nat → R) (c : R) (hx : Rests x c) :
    ∃ (n0 : Nat) (v : R), ∀ N, N ≠ l - 1 → ∃ ys, vidyaBatch o (pre x N) = .ok (.okay, ys) ∧ ys.length = N - (l - 2) ∧ ∀ j y, n0 ≤ j → ys[j]? = some y → y = v := by
  obtain ⟨m, hm⟩ := hx
  refine ⟨m, Spec.vidya s l (o 2) x m, fun N hN => ⟨_, vidya_value_partial o s l hs hl h1 h2 h3 ha ha' x N hN, by simp [pre], fun j v hj hv => ?_⟩⟩
  simp only [pre, List.getElem?_map, Option.map_eq_some_iff] at hv
  obtain ⟨i, hi, rfl⟩ := hv
  obtain ⟨_, e⟩ := List.getElem?_eq_some_iff.1 hi
  have : i = j := by simpa using e.symm
  subst this
  clear hi e
  induction i, hj using Nat.le_induction with
  | base => rfl
  | succ i hi ih => exact (vidya_stays s l h1 _ hm i hi).trans (ih (by omega))

theorem vidya_step [LawfulSqrt R] (a : R) {x : Nat → R} (h0 : x 0 = 0) (hr : ∀ i, 1 ≤ i → x i = 1) : ∀ j, Spec.vidya 2 2 a x (j + 1) = a := fun j => by
  induction j with
  | zero =>
    have hv : winVar 2 x 0 = 1 / 4 := by
      unfold winVar winMean winSum
      simp only [Finset.sum_range_succ, Finset.sum_range_zero, Nat.zero_add, h0, hr 1 le_rfl]
      norm_num
    have hq : CMath.sqrt (winVar 2 x 0) ≠ 0 := fun h => by
      have := LawfulSqrt.sqrt_sq (winVar 2 x 0) (by rw [hv]; norm_num)
      rw [h, hv] at this
      norm_num at this
    simp only [Spec.vidya, vidyaWeight, Nat.sub_self, Nat.add_zero, Nat.zero_add, h0, hr 1 le_rfl]
    rw [div_self hq]
    ring
  | succ j ih => rw [vidya_stays 2 2 (by omega) _ hr (j + 1) (by omega), ih]

/-- So it need not come near the price: after one step from 0 to 1 it stays at `alpha` for ever (periods 2 and 2). -/
theorem vidya_follows_violates [LawfulSqrt R] (o : Nat → R) (hs : toInt (o 0) = .ok 2) (hl : toInt (o 1) = .ok 2) (ha : 0 ≤ o 2) (ha' : o 2 < 1) :
    Rests (fun n => if n = 0 then (0 : R) else 1) 1 ∧ Approaches vidyaBatch o 0 (fun n => if n = 0 then (0 : R) else 1) id (o 2) ∧ ¬ Follows vidyaBatch o 0 1 := by
  obtain ⟨x, hxd⟩ : ∃ x : Nat → R, x = fun n => if n = 0 then (0 : R) else 1 := ⟨_, rfl⟩
  rw [← hxd]
  have hr : ∀ i, 1 ≤ i → x i = 1 := fun i hi => by rw [hxd]; exact if_neg (by omega)
  have h0 : x 0 = 0 := by rw [hxd]; simp
  have v := vidya_step (o 2) h0 hr
  have A : Approaches vidyaBatch o 0 x id (o 2) :=
    approaches 2 (fun N hN => vidya_value_partial o 2 2 hs hl (by omega) (by omega) (by omega) ha ha'.le x N (by omega))
      (.of_rests ⟨1, fun i hi => by obtain ⟨k, rfl⟩ : ∃ k, i = k + 1 := ⟨i - 1, by omega⟩; exact v k⟩)
  refine ⟨⟨1, hr⟩, A, fun F => ?_⟩
  have B := F x 1 ⟨1, hr⟩
  have hε : 0 < (1 - o 2) / 4 := by linarith
  obtain ⟨n1, A⟩ := A _ hε
  obtain ⟨n2, B⟩ := B _ hε
  obtain ⟨ys, y1, y2, y3⟩ := A (n1 + n2 + 1) (by omega)
  obtain ⟨zs, z1, z2, z3⟩ := B (n1 + n2 + 1) (by omega)
  rw [y1] at z1
  cases z1
  have e : ys[n1 + n2]? = some ys[n1 + n2] := List.getElem?_eq_getElem (by omega)
  have a := abs_le.1 (y3 _ _ (by omega) e)
  have b := abs_le.1 (z3 _ _ (by omega) e)
  simp only [id, one_mul] at a b
  linarith [a.1, a.2, b.1, b.2]

/-- So vidya never forgets: after the histories 0 and 1 and prices of 1 since then, it stays at `alpha`, or at 1 (C78). -/
theorem vidya_fades_violates [LawfulSqrt R] (o : Nat → R) (hs : toInt (o 0) = .ok 2) (hl : toInt (o 1) = .ok 2) (ha : 0 ≤ o 2) (ha' : o 2 < 1) :
    ¬ Fades vidyaBatch o id := by
  have V := fun (x : Nat → R) (N : Nat) (hN : N ≠ 1) => vidya_value_partial o 2 2 hs hl (by omega) (by omega) (by omega) ha ha'.le x N hN
  refine Memory.not_fades [0] [1] (fun _ => 1) (fun _ _ => trivial) (fun _ _ => trivial) (fun _ => trivial) 0 (d := 1 - o 2) (by linarith) fun n hn => ?_
  refine ⟨_, _, _, _, (congrArg _ (flat_pre 0 1 n)).trans (V _ _ (by omega)), (congrArg _ (flat_pre 1 1 n)).trans (V _ _ (by omega)), last_pre _ (n + 1), last_pre _ (n + 1), ?_⟩
  have e1 := vidya_step (o 2) (x := fun i => if i = 0 then (0 : R) else 1) (by simp) (fun i hi => if_neg (by omega)) n
  have e2 : Spec.vidya 2 2 (o 2) (fun i => if i = 0 then (1 : R) else 1) (n + 1) = 1 := by
    generalize n + 1 = k
    induction k with
    | zero => simp [Spec.vidya]
    | succ k ih => rw [vidya_stays 2 2 (by omega) _ (c := 1) (m := 0) (fun i _ => by simp) k (by omega), ih]
  rw [e1, e2]
  simp only [id]
  rw [abs_sub_comm]
  exact le_abs_self _

/-- Nor does dx: after one rise, or none, and no move since then, it stays at 100, or at 0 (C78). -/
theorem dx_fades_violates [LawfulAbs R] (o : Nat → R) (p : Nat) (hc : toInt (o 0) = .ok (p : Int)) (hp : 2 ≤ p) : ¬ Fades dxBatch o id := by
  refine not_fades_flat (dx_value o p hc (by omega)) ⟨1, 0⟩ ⟨2, 1⟩ ⟨2, 1⟩ (d := 100) (by norm_num) fun n => ?_
  have hp' : (2 : R) ≤ p := by exact_mod_cast hp
  have u : plusDM (fun i : Nat => if i = 0 then (⟨1, 0⟩ : HL R) else ⟨2, 1⟩) = fun k => if k = 0 then 1 else 0 := funext fun k => by
    cases k <;> norm_num [plusDM, upMove, downMove]
  have w : minusDM (fun i : Nat => if i = 0 then (⟨1, 0⟩ : HL R) else ⟨2, 1⟩) = fun _ => 0 := funext fun k => by
    cases k <;> norm_num [minusDM, upMove, downMove]
  have u' : plusDM (fun i : Nat => if i = 0 then (⟨2, 1⟩ : HL R) else ⟨2, 1⟩) = fun _ => 0 := funext fun k => by
    norm_num [plusDM, upMove, downMove]
  have w' : minusDM (fun i : Nat => if i = 0 then (⟨2, 1⟩ : HL R) else ⟨2, 1⟩) = fun _ => 0 := funext fun k => by
    norm_num [minusDM, upMove, downMove]
  have z : ∀ n, wilderSum p (fun _ => (0 : R)) n = 0 := fun n => by
    induction n with
    | zero => simp [wilderSum]
    | succ n ih => rw [wilderSum, ih]; simp
  have pos : ∀ n, 0 < wilderSum p (fun k : Nat => if k = 0 then (1 : R) else 0) n := fun n => by
    induction n with
    | zero =>
      rw [wilderSum, Finset.sum_eq_single 0]
      · simp
      · intro b _ hb; simp [hb]
      · intro h; simp at h; omega
    | succ n ih =>
      rw [wilderSum]
      have : wilderSum p (fun k : Nat => if k = 0 then (1 : R) else 0) n / (p : R) < wilderSum p (fun k : Nat => if k = 0 then (1 : R) else 0) n := by
        rw [div_lt_iff₀ (by linarith)]; nlinarith
      have : (0 : R) ≤ if n + (p - 1) = 0 then 1 else 0 := by split <;> norm_num
      linarith
  rw [u, w, u', w', z]
  have := pos (n + 1)
  simp only [dxOf, id, add_zero, sub_zero, if_true, this.ne', if_false, abs_of_pos this, div_self this.ne']
  norm_num

theorem elastic_step (p : Nat) (hp : 1 ≤ p) (g : R) (hg : 0 < g) {x : Nat → CV R} {c : CV R} (hv : c.volume ≠ 0) {j : Nat} (h : ∀ i, j ≤ i → x i = c) :
    elasticMean p g x (j + 1) - c.close = (1 - 1 / (g * p)) * (elasticMean p g x j - c.close) := by
  have hp' : (p : R) ≠ 0 := by exact_mod_cast (show p ≠ 0 by omega)
  have ht : winSum p (fun k => (x k).volume) (j + 1) = p * c.volume := by
    unfold winSum
    have e : ∀ k, (x (j + 1 + k)).volume = c.volume := fun k => by rw [h (j + 1 + k) (by omega)]
    simp [e]
  rw [elasticMean]
  dsimp only
  rw [ht, if_neg (mul_ne_zero hp' hv), h (j + p) (by omega)]
  field_simp
  ring

/-- evwma approaches the close when close and volume stop moving, if the volume is not 0. Partial: `gamma` times the period must exceed one half. -/
theorem evwma_follows_partial (o : Nat → R) (p : Nat) (hc : toInt (o 0) = .ok (p : Int)) (hp : 1 ≤ p) (hg : 0 < o 1) (h2 : 1 < 2 * (o 1 * p))
    (x : Nat → CV R) (c : CV R) (hv : c.volume ≠ 0) (hx : Rests x c) : Approaches evwmaBatch o (p - 1) x id c.close := by
  refine approaches 0 (fun N _ => evwma_value o p hc hp hg x N) ?_
  obtain ⟨m, hm⟩ := hx
  have h0 : 0 < 1 / (o 1 * p) := by have : 0 < o 1 * p := by linarith
                                    positivity
  have h3 : 1 / (o 1 * p) < 2 := by rw [div_lt_iff₀ (by linarith)]; linarith
  have t : Tends (fun n => elasticMean p (o 1) x n - c.close) 0 := by
    refine Converge.contract (w := fun _ => 0) (q := |1 - 1 / (o 1 * p)|) (abs_nonneg _) (abs_lt.2 ⟨by linarith, by linarith⟩) m (fun n hn => ?_) (.const 0)
    rw [elastic_step p hp (o 1) hg hv fun i hi => hm i (by omega), abs_mul, abs_zero, add_zero]
  have := t.add (.const c.close)
  simp only [sub_add_cancel, zero_add] at this
  exact this

/-- With `gamma` times the period below one half it leaves every bound after a single step of the close, although close and volume rest. -/
theorem evwma_follows_violates (o : Nat → R) (p : Nat) (hc : toInt (o 0) = .ok (p : Int)) (hp : 1 ≤ p) (hg : 0 < o 1) (h2 : 2 * (o 1 * p) < 1) :
    Escapes evwmaBatch o (p - 1) (fun n => if n < p then ⟨0, 1⟩ else ⟨1, 1⟩) := by
  obtain ⟨x, hxd⟩ : ∃ x : Nat → CV R, x = fun n => if n < p then ⟨0, 1⟩ else ⟨1, 1⟩ := ⟨_, rfl⟩
  rw [← hxd]
  have hp' : (1 : R) ≤ p := by exact_mod_cast hp
  have hgp : 0 < o 1 * p := mul_pos hg (by linarith)
  have vol : ∀ i, (x i).volume = 1 := fun i => by rw [hxd]; dsimp only; split <;> rfl
  have cl : ∀ i, p ≤ i → (x i).close = 1 := fun i hi => by rw [hxd]; dsimp only; rw [if_neg (by omega)]
  have st : ∀ j, elasticMean p (o 1) x (j + 1) - 1 = (1 - 1 / (o 1 * p)) * (elasticMean p (o 1) x j - 1) := fun j => by
    have ht : winSum p (fun k => (x k).volume) (j + 1) = p := by unfold winSum; simp [vol]
    rw [elasticMean]
    dsimp only
    rw [ht, if_neg (by linarith), vol, cl _ (by omega)]
    ring
  have e0 : elasticMean p (o 1) x 0 = 0 := by
    rw [elasticMean, hxd]
    dsimp only
    rw [if_pos (by omega)]
  have r : 1 < |1 - 1 / (o 1 * p)| := by
    have : 2 < 1 / (o 1 * p) := by rw [lt_div_iff₀ hgp]; linarith
    rw [abs_of_neg (by linarith)]; linarith
  have cf : ∀ j, |elasticMean p (o 1) x j - 1| = |1 - 1 / (o 1 * p)| ^ j := fun j => by
    induction j with
    | zero => rw [e0]; simp
    | succ j ih => rw [st, abs_mul, ih, pow_succ, mul_comm]
  intro C
  obtain ⟨n0, hn0⟩ := pow_unbounded_of_one_lt (C + 1) r
  refine ⟨n0, fun N => ⟨_, evwma_value o p hc hp hg x N, by simp [pre], fun j v hj hv => ?_⟩⟩
  simp only [pre, List.getElem?_map, Option.map_eq_some_iff] at hv
  obtain ⟨i, hi, rfl⟩ := hv
  obtain ⟨_, e⟩ := List.getElem?_eq_some_iff.1 hi
  have : i = j := by simpa using e.symm
  subst this
  have a : |1 - 1 / (o 1 * p)| ^ n0 ≤ |1 - 1 / (o 1 * p)| ^ i := pow_le_pow_right₀ r.le hj
  have b := abs_sub (elasticMean p (o 1) x i) 1
  rw [cf, abs_one] at b
  linarith

/-- stochrsi is 0 from some bar on. Partial: `start` is computed without overflow. -/
theorem stochrsi_rests_partial (o : Nat → R) (p : Nat) (hc : toInt (o 0) = .ok (p : Int)) (hp : 2 ≤ p) (hb : p ≤ 1073741823) (x : Nat → R) (c : R) (hx : Rests x c) :
    ∃ n0 : Nat, ∀ N, ∃ ys, stochrsiBatch o (pre x N) = .ok (.okay, ys) ∧ ys.length = N - (2 * p - 1) ∧ ∀ j y, n0 ≤ j → ys[j]? = some y → y = 0 := by
  obtain ⟨n0, v, F⟩ := rsi_freezes o p hc hp x c hx
  refine ⟨n0, fun N => ?_⟩
  obtain ⟨r, h1, h2⟩ := stochrsi_value_partial o p hc hp hb x N
  refine ⟨_, h2, by simp [pre], fun j y hj hy => ?_⟩
  simp only [pre, List.getElem?_map, Option.map_eq_some_iff] at hy
  obtain ⟨i, hi, rfl⟩ := hy
  obtain ⟨hlt, e⟩ := List.getElem?_eq_some_iff.1 hi
  have : i = j := by simpa using e.symm
  subst this
  simp only [List.length_range] at hlt
  obtain ⟨ys, y1, _, y3⟩ := F N
  rw [h1] at y1
  cases y1
  have fr : ∀ k, i ≤ k → k < i + p → r k = v := fun k hk hk' => y3 k (r k) (by omega) (by
    simp only [pre, List.getElem?_map, List.getElem?_range (show k < N - p by omega), Option.map_some])
  obtain ⟨k1, a1, b1, e1⟩ := winMax_mem p (by omega) r i
  obtain ⟨k2, a2, b2, e2⟩ := winMin_mem p (by omega) r i
  rw [inRange, e1, e2, fr k1 a1 b1, fr k2 a2 b2, sub_self, if_pos rfl]

/-- pfe approaches -1000 divided by the period, not 0. -/
theorem pfe_rests [LawfulPow R] [LawfulSqrt R] (o : Nat → R) (p e : Nat) (hcp : toInt (o 0) = .ok (p : Int)) (hce : toInt (o 1) = .ok (e : Int)) (hp : 1 ≤ p) (he : 1 ≤ e)
    (x : Nat → R) (c : R) (hx : Rests x c) : Approaches pfeBatch o p x id (-1000 / (p : R)) := by
  refine approaches 0 (fun N _ => pfe_value o p e hcp hce hp he x N) ?_
  obtain ⟨m, hm⟩ := hx
  refine Converge.ema (Converge.emaCoef_pos e) (Converge.emaCoef_lt e he) (.of_rests ⟨m, fun i hi => ?_⟩)
  have s100 : CMath.sqrt (100 : R) = 10 := by
    have := sqrt_square (10 : R) (by norm_num); rw [← this]; norm_num
  have s1 : CMath.sqrt (1 : R) = 1 := by
    have := sqrt_square (1 : R) (by norm_num); rwa [one_mul] at this
  unfold polarEff pathLength
  rw [hm i hi, hm (i + p) (by omega), if_neg (lt_irrefl _), Finset.sum_congr rfl fun k _ => by rw [hm (i + k + 1) (by omega), hm (i + k) (by omega)]]
  simp [s100, s1]
  ring

end

/-- Bars that fall for three bars and then rest with a range, and what dx, adx and adxr and kvo make of them. -/
def fallThenRest (n : Nat) : HL Rat := if n < 3 then ⟨9 - n, 7 - n⟩ else ⟨5, 4⟩
example : Rests fallThenRest ⟨5, 4⟩ := ⟨3, fun i hi => by unfold fallThenRest; rw [if_neg (by omega)]⟩
example : (dxBatch (R := Rat) (opts [2]) (pre fallThenRest 8)).toOption.map (·.2) = some [100, 100, 100, 100, 100, 100, 100] := by decide +kernel
example : Freezes dxBatch (opts [2] : Nat → Rat) 1 fallThenRest :=
  dx_freezes _ 2 (by decide +kernel) (by omega) _ _ ⟨3, fun i hi => by unfold fallThenRest; rw [if_neg (by omega)]⟩
example : Approaches massBatch (opts [2] : Nat → Rat) 17 fallThenRest id 2 :=
  mass_rests_partial _ 2 (by decide +kernel) (by omega) (by omega) _ ⟨5, 4⟩ ⟨3, fun i hi => by unfold fallThenRest; rw [if_neg (by omega)]⟩ (by norm_num)

/-- evwma with period 1 and `gamma` 1/4 after a step of the close from 0 to 1. -/
example : Escapes evwmaBatch (opts [1, 1/4] : Nat → Rat) 0 (fun n => if n < 1 then ⟨0, 1⟩ else ⟨1, 1⟩) :=
  evwma_follows_violates _ 1 (by decide +kernel) (by omega) (by decide +kernel) (by decide +kernel)
example : (evwmaBatch (opts [1, 1/4] : Nat → Rat) (pre (fun n => if n < 1 then ⟨0, 1⟩ else ⟨1, 1⟩) 5)).toOption.map (·.2) = some [0, 4, -8, 28, -80] := by decide +kernel

/-- vidya over the reals, periods 2 and 2. -/
example : ¬ Follows vidyaBatch (fun n => if n = 2 then (1 / 5 : ℝ) else 2) 0 1 :=
  (vidya_follows_violates _ (toInt_cast 2 (by omega)) (toInt_cast 2 (by omega)) (by norm_num) (by norm_num)).2.2

end Verif
