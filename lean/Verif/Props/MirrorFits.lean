/- C79: the market turned upside down, indicators defined by a property of their output, and those that tell up from down. -/
import Verif.Props.Mirror

namespace Verif
open Spec Finset
open Spec (ema wilder)
open Units Mirror
set_option linter.unusedSectionVars false

section
variable {R : Type} [Field R] [LinearOrder R] [IsStrictOrderedRing R] [CMath R]

/-! ### Medians -/

theorem median_m {w : List R} {m : R} (h : IsMedian w m) (a : R) : IsMedian (w.map fun v => a - v) (a - m) := by
  obtain ⟨h1, h2, h3⟩ := h
  refine ⟨List.mem_map.2 ⟨m, h1, rfl⟩, ?_, ?_⟩
  · rw [List.length_map, List.filter_map, List.length_map]
    simpa only [Function.comp_def, le_m] using h3
  · rw [List.length_map, List.filter_map, List.length_map]
    simpa only [Function.comp_def, le_m] using h2
theorem mad_m {w : List R} {m d : R} (h : IsMedian (w.map fun v => |v - m|) d) (a : R) :
    IsMedian ((w.map fun v => a - v).map fun v => |v - (a - m)|) d := by
  simpa only [List.map_map, Function.comp_def, abs_m] using h
theorem hampel_m {thr : R} {w : List R} {cand y : R} (h : Hampel thr w cand y) (a : R) : Hampel thr (w.map fun v => a - v) (a - cand) (a - y) := by
  obtain ⟨m, d, h1, h2, rfl⟩ := h
  refine ⟨a - m, d, median_m h1 a, mad_m h2 a, ?_⟩
  rw [abs_m]; split <;> rfl
theorem hampelIncl_m {thr : R} {w : List R} {cand y : R} (h : HampelIncl thr w cand y) (a : R) :
    HampelIncl thr (w.map fun v => a - v) (a - cand) (a - y) := by
  obtain ⟨m, d, h1, h2, rfl⟩ := h
  refine ⟨a - m, d, median_m h1 a, mad_m h2 a, ?_⟩
  rw [abs_m]; split <;> rfl
theorem seg_m {a : R} {x x' : Nat → R} (h : ∀ i, x' i = a - x i) (t n : Nat) : seg x' t n = (seg x t n).map fun v => a - v := by
  simp [seg, Function.comp_def, h]
/-- Partial: periods whose window length overflows are left out (in the next ones too). -/
theorem hf_mirror_partial [LawfulAbs R] (o : Nat → R) (k : Nat) (hc : toInt (o 0) = .ok (k : Int)) (hk : 1 ≤ k) (hb : 2 * k + 1 ≤ 2147483647) (ht : 0 ≤ o 1) :
    MirrorsPrice hfBatch o := fun a => turns fun x N _ => by
  obtain ⟨v, e1, e2⟩ := hf_value_partial o k hc hk hb ht x
  obtain ⟨v', e1', e2'⟩ := hf_value_partial o k hc hk hb ht (fun i => a - x i)
  refine ⟨v, v', e1 N, e1' N, fun t _ => ?_⟩
  have := e2' t
  rw [seg_m fun _ => rfl] at this
  exact hampel_unique this (hampel_m (e2 t) a)
theorem hfema_mirror_partial [LawfulAbs R] (o : Nat → R) (p k : Nat) (h0 : toInt (o 0) = .ok (p : Int)) (h1 : toInt (o 1) = .ok (k : Int)) (hp : 1 ≤ p)
    (hk : 1 ≤ k) (hb : 2 * k + 1 ≤ 2147483647) (ht : 0 ≤ o 2) : MirrorsPrice hfemaBatch o := fun a => turns fun x N _ => by
  obtain ⟨v, e1, e2⟩ := hfema_value_partial o p k h0 h1 hp hk hb ht x
  obtain ⟨v', e1', e2'⟩ := hfema_value_partial o p k h0 h1 hp hk hb ht (fun i => a - x i)
  refine ⟨v, v', e1 N, e1' N, fun t _ => ?_⟩
  have e := ema_m (k := emaCoef p) (x := x) (x' := fun i => a - x i) fun _ => rfl
  have := e2' t
  rw [seg_m e, e] at this
  exact hampelIncl_unique this (hampelIncl_m (e2 t) a)
theorem hfsma_mirror_partial [LawfulAbs R] [LawfulTrunc R] [LawfulRound R] (o : Nat → R) (p k : Nat) (h0 : toInt (o 0) = .ok (p : Int)) (h1 : toInt (o 1) = .ok (k : Int)) (hp : 1 ≤ p)
    (hk : 1 ≤ k) (hb : 2 * k + 1 ≤ 2147483647) (hb2 : p - 1 + 2 * k ≤ 2147483647) (ht : 0 ≤ o 2) : MirrorsPrice hfsmaBatch o := fun a => turns fun x N _ => by
  obtain ⟨v, e1, e2⟩ := hfsma_value_partial o p k h0 h1 hp hk hb hb2 ht x
  obtain ⟨v', e1', e2'⟩ := hfsma_value_partial o p k h0 h1 hp hk hb hb2 ht (fun i => a - x i)
  refine ⟨v, v', e1 N, e1' N, fun t _ => ?_⟩
  have e := winMean_m (p := p) (x := x) (x' := fun i => a - x i) (fun _ => rfl) hp
  have := e2' t
  rw [seg_m e, e] at this
  exact hampelIncl_unique this (hampelIncl_m (e2 t) a)
theorem rmf_mirror [LawfulAbs R] [LawfulTrunc R] [LawfulRound R] (o : Nat → R) (k : Nat) (hc : toInt (o 1) = .ok ((2 * k + 1 : Nat) : Int)) (h0 : 1 ≤ o 0) : MirrorsPrice rmfBatch o :=
  fun a => turns fun x N _ => by
    obtain ⟨v, v0, vs, hv⟩ := rmf_value o k hc h0 x _ (rmfMid_median k x) _ rfl
    obtain ⟨u, u0, us, hu⟩ := rmf_value o k hc h0 (fun i => a - x i) (fun t => a - rmfMid k x t)
      (fun t => by rw [seg_m fun _ => rfl]; exact median_m (rmfMid_median k x t) a) _ rfl
    refine ⟨v, u, hv N, hu N, fun t _ => ?_⟩
    induction t with
    | zero => rw [u0, v0]; rfl
    | succ t ih =>
      rw [us, vs, ih (by omega)]
      simp only [mirror]; ring

/-! ### Projection bands -/

theorem projection_m {a : R} {p : Nat} {x : Nat → HLC R} {j : Nat} {y : Pband R} (h : IsProjection p x j y) :
    IsProjection p (fun i => mirror (fun v => a - v) (x i)) j (mirror (fun v => a - v) y) := fun A B hAB => by
  have hb : IsBestLine p (fun i => (x i).close) j (a - A) (-B) := by
    have := bestLine_m (d := a) hAB
    simpa only [mirror, sub_sub_cancel] using this
  obtain ⟨⟨u1, u2⟩, l1, l2⟩ := h _ _ hb
  refine ⟨⟨?_, fun v hv => ?_⟩, ?_, fun v hv => ?_⟩
  · obtain ⟨k, hk, e⟩ := l1
    exact ⟨k, hk, by simp only [mirror]; rw [e]; ring⟩
  · obtain ⟨k, hk, rfl⟩ := hv
    have := l2 ⟨k, hk, rfl⟩
    simp only [mirror]
    linarith
  · obtain ⟨k, hk, e⟩ := u1
    exact ⟨k, hk, by simp only [mirror]; rw [e]; ring⟩
  · obtain ⟨k, hk, rfl⟩ := hv
    have := u2 ⟨k, hk, rfl⟩
    simp only [mirror]
    linarith
/-- Partial: periods for which a product of three factors overflows are left out. -/
theorem pbands_mirror_partial [LawfulTrunc R] [LawfulRound R] (o : Nat → R) (p : Nat) (hcp : toInt (o 0) = .ok (p : Int)) (hp : 1 ≤ p)
    (hpp : p * (p + 1) * (2 * p + 1) ≤ 2147483647) : MirrorsPrice pbandsBatch o := fun a => by
  obtain ⟨band, h1, h2⟩ := pbands_value_partial o p hcp hp hpp
  exact ofVal h2 fun x j => projection_unique hp (h1 _ j) (projection_m (h1 x j))
/-- Partial: the same, and every bar has a range. -/
theorem posc_mirror_partial [LawfulTrunc R] [LawfulRound R] (o : Nat → R) (p e : Nat) (hcp : toInt (o 0) = .ok (p : Int))
    (hce : toInt (o 1) = .ok (e : Int)) (hp : 1 ≤ p) (he : 1 ≤ e) (hb : e < 2147483647)
    (hpp : p * (p + 1) * (2 * p + 1) ≤ 2147483647) : MirrorsAround 50 poscBatch o (fun xs => ∀ r ∈ xs, r.low < r.high) := fun a => by
  obtain ⟨band, h1, h2⟩ := posc_value_partial o p e hcp hce hp he hb hpp
  refine turnsRows (s := p - 1) (fun r : HLC R => r.low < r.high) ⟨1, 0, 0⟩ one_pos fun x hx N => ⟨_, _, h2 x N, h2 _ N, fun j => ?_⟩
  have e1 : ∀ j, band (fun i => mirror (fun v => a - v) (x i)) j = mirror (fun v => a - v) (band x j) :=
    fun j => projection_unique hp (h1 _ j) (projection_m (h1 x j))
  have e2 : ∀ j, (band x j).lower < (band x j).upper := fun j => by
    obtain ⟨A, B, hAB⟩ := bestLine_exists p hp (fun i => (x i).close) j
    obtain ⟨u, l⟩ := h1 x j A B hAB
    have u2 := u.2 (show _ ∈ projections p (fun i => (x i).high) B (j + (p - 1)) from ⟨0, by omega, rfl⟩)
    have l2 := l.2 (show _ ∈ projections p (fun i => (x i).low) B (j + (p - 1)) from ⟨0, by omega, rfl⟩)
    have := hx (j + (p - 1) - 0)
    simp only at u2 l2
    linarith
  refine (ema_m (a := 100) (x := fun i => percentOf (band x i).lower (band x i).upper (x (i + (p - 1))).close) (fun i => ?_) j).trans ?_
  · have := (sub_pos.2 (e2 i)).ne'
    simp only [e1]
    simp only [mirror, percentOf, sub_m]
    field_simp; ring
  · simp only [mirror]; norm_num

/-! ### Adaptive averages -/

theorem rangePerBar_m {a : R} (n : Nat) (x : Nat → HL R) (j : Nat) : rangePerBar n (fun i => mirror (fun v => a - v) (x i)) j = rangePerBar n x j := by
  unfold rangePerBar
  simp only [mirror]
  rw [winMax_m (x := fun k => (x k).low) (a := a) fun _ => rfl, winMin_m (x := fun k => (x k).high) (a := a) fun _ => rfl, sub_m]
/-- Partial: even periods that are whole numbers, and a slow period of at least 2. -/
theorem frama_mirror_partial (o : Nat → R) (h : Nat) (ho : o 0 = (((2 * h : Nat) : Int) : R)) (hh : 1 ≤ h) (hb : 2 * h ≤ 2147483647) (h2 : ¬ o 1 < c! 2)
    [LawfulTrunc R] [LawfulRound R] [LawfulCeil R] : MirrorsPrice framaBatch o := fun a => ofVal (frama_value_partial o h ho hh hb h2) fun x j => by
  induction j with
  | zero => simp only [framaAvg, mirror]; ring
  | succ j ih =>
    simp only [framaAvg, ih, fractalWeight, fractalDim, rangePerBar_m]
    simp only [mirror]
    split <;> ring
theorem mgdyn_mirror (o : Nat → R) : MirrorsZero mgdynBatch o := by
  obtain ⟨y, e1, e2⟩ := mgdyn_value o
  refine ofVal e1 fun x j => ?_
  induction j with
  | zero => rw [(e2 _).1, (e2 x).1]
  | succ j ih =>
    rw [(e2 _).2, (e2 x).2, ih]
    simp only [mirror, neg_div_neg_eq]; ring
/-- The period of the dominant cycle does not depend on the sign. -/
theorem hd_mirror (o : Nat → R) : Turns hdBatch o (fun _ => True) (fun v => -v) id := turns fun x N _ => by
  obtain ⟨s, hs⟩ := homodyne_exists (2 * CMath.acos (-1) : R) (fun t => weighted4 x (5 + t))
  have := homodyne_mul (neg_ne_zero.2 one_ne_zero) hs
  rw [show (fun t => -1 * weighted4 x (5 + t)) = fun t => weighted4 (fun i => -x i) (5 + t) from
    funext fun t => by simp only [weighted4]; ring] at this
  exact ⟨_, _, hd_value o x s hs N, hd_value o _ _ this N, fun _ _ => rfl⟩
theorem mama_mirror (o : Nat → R) (h0 : 0 ≤ o 0 ∧ o 0 ≤ 1) (h1 : 0 ≤ o 1 ∧ o 1 ≤ 1) : MirrorsZero mamaBatch o := turns fun x N _ => by
  obtain ⟨s, ph, al, ma, fa, hs, hA, hN⟩ := mama_value o h0 h1 x
  obtain ⟨s', ph', al', ma', fa', hs', hA', hN'⟩ := mama_value o h0 h1 (fun i => mirror (fun v : R => -v) (x i))
  have := homodyne_mul (neg_ne_zero.2 (one_ne_zero (α := R))) hs
  rw [show (fun t => -1 * weighted4 x (6 + t)) = fun t => weighted4 (fun i => mirror (fun v : R => -v) (x i)) (6 + t) from
    funext fun t => by simp only [weighted4, mirror]; ring] at this
  obtain rfl := homodyne_unique hs' this
  have e1 : ph' = ph := funext fun t => by rw [hA'.phase_eq, hA.phase_eq]; simp
  have e2 : al' = al := funext fun t => by rw [hA'.alpha_eq, hA.alpha_eq, e1]
  have ago : ∀ {f g : Nat → R} (t : Nat), (∀ k, k < t → f k = -g k) → barsAgo f t 1 = -barsAgo g t 1 := fun t hk => by
    unfold barsAgo
    split
    · exact hk _ (by omega)
    · simp
  have e3 : ∀ t, ma' t = -ma t := fun t => by
    induction t using Nat.strong_induction_on with
    | _ t ih => rw [hA'.mama_eq, hA.mama_eq, e2, ago t ih]; simp only [mirror]; ring
  have e4 : ∀ t, fa' t = -fa t := fun t => by
    induction t using Nat.strong_induction_on with
    | _ t ih => rw [hA'.fama_eq, hA.fama_eq, e2, ago t ih, e3]; ring
  exact ⟨_, _, hN N, hN' N, fun j _ => by simp only [mirror, e3, e4]⟩

/-! ### Oscillators that need different prices -/

theorem nodup_pre {x : Nat → R} {N : Nat} (h : (pre x N).Nodup) {i j : Nat} (hi : i < N) (hj : j < N) (e : i ≠ j) : x i ≠ x j := fun h' =>
  e ((List.Nodup.getElem_inj_iff h (hi := by simpa [pre] using hi) (hj := by simpa [pre] using hj)).1 (by simpa [pre] using h'))
theorem ema_local {k : R} {x y : Nat → R} {n : Nat} (h : ∀ i, i ≤ n → x i = y i) : ema k x n = ema k y n := by
  induction n with
  | zero => exact h 0 le_rfl
  | succ n ih => rw [ema, ema, ih fun i hi => h i (by omega), h _ le_rfl]
/-- Partial: whole momentum periods, no price twice. -/
theorem rmi_mirror_partial [LawfulTrunc R] [LawfulRound R] (o : Nat → R) (p : Nat) (h0 : 1 ≤ o 0) (ho : o 1 = (p : R)) (hp : 1 ≤ p) (hb : p ≤ 2147483647) :
    MirrorsAround 50 rmiBatch o List.Nodup := fun a => turns fun x N hN =>
  ⟨_, _, rmi_value_partial o p h0 ho hp hb x N, rmi_value_partial o p h0 ho hp hb _ N, fun j hj => by
    simp only [relMomentum, gainOver_m (a := a) (x := x) (x' := fun i => mirror (fun v => a - v) (x i)) (fun _ => rfl),
      lossOver_m (a := a) (x := x) (x' := fun i => mirror (fun v => a - v) (x i)) fun _ => rfl]
    refine shares_m (ne_of_gt ?_)
    rw [← ema_add]
    refine ema_pos (by positivity) ((div_le_one (by linarith)).2 (by linarith)) _ _ fun k hk => ?_
    have : x k ≠ x (k + p) := nodup_pre hN (by omega) (by omega) (by omega)
    unfold gainOver lossOver
    rcases this.lt_or_gt with h | h
    · rw [max_eq_right (by linarith), max_eq_left (by linarith)]; linarith
    · rw [max_eq_left (by linarith), max_eq_right (by linarith)]; linarith⟩
/-- Partial: no price twice. -/
theorem pfe_mirror_partial [LawfulPow R] (o : Nat → R) (p e : Nat) (hcp : toInt (o 0) = .ok (p : Int)) (hce : toInt (o 1) = .ok (e : Int)) (hp : 1 ≤ p) (he : 1 ≤ e) :
    MirrorsSign pfeBatch o List.Nodup := fun a => turns fun x N hN =>
  ⟨_, _, pfe_value o p e hcp hce hp he x N, pfe_value o p e hcp hce hp he _ N, fun j hj => by
    refine (ema_local fun k hk => ?_).trans (ema_neg (x := polarEff p x) (fun _ => rfl) j)
    have h : x k ≠ x (k + p) := nodup_pre hN (by omega) (by omega) (by omega)
    have e1 : pathLength p (fun i => mirror (fun v => a - v) (x i)) k = pathLength p x k := by
      simp only [pathLength, mirror, sub_m]
      refine sum_congr rfl fun i _ => ?_
      congr 2
      ring
    have e2 : ((x k - x (k + p)) ^ 2 : R) = (x (k + p) - x k) ^ 2 := by ring
    simp only [polarEff, e1]
    simp only [mirror, lt_m, sub_m, e2]
    rcases h.lt_or_gt with h | h
    · rw [if_neg h.not_gt, if_pos h]; ring
    · rw [if_pos h, if_neg h.not_gt]; ring⟩
end

end Verif
