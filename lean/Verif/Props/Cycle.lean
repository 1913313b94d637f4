/-
C27, C29 and C03, C32-C36 for hd, arsi and mama.
-/
import Verif.Proof.Cycle
import Verif.Proof.StreamErr
import Verif.Props.Flow
import Verif.Spec.Cycle

set_option linter.unusedSectionVars false
set_option linter.unusedSimpArgs false
set_option linter.unusedVariables false

namespace Verif
open Spec Finset

section Any
variable {R : Type} [Num R]

/-! ### Any arithmetic -/

theorem hd_contract (o : Nat → R) : Contract hdStart hdBatch o 5 := (hd_run o).contract rfl
theorem hd_stream_eq_batch (o : Nat → R) : (hd (R := R)).StreamEqBatch o 5 := streamEqBatch_of (hd_run o) (hd_stream_run o)
theorem hd_chunks (o : Nat → R) : (hd (R := R)).ChunkInvariant o := chunkInvariant_of (fun _ => hdLoops_ordered _) o

theorem arsi_refuses (o : Nat → R) (h : o 0 ≤ c! 0) : Refuses arsiBatch o ∧ (arsi (R := R)).NewRefuses o :=
  ⟨fun xs => by simp [arsiBatch, h], by simp [Indicator.NewRefuses, arsi, arsiNew, h]⟩
theorem arsi_chunks (o : Nat → R) : (arsi (R := R)).ChunkInvariant o :=
  chunkInvariant_of (fun k => arsiPhases_ordered (R := R) k) o

theorem mama_contract (o : Nat → R) (h : mamaBad o = false) : Contract mamaStart mamaBatch o 6 := (mama_run o h).contract rfl
theorem mama_refuses (o : Nat → R) (h : ¬ (c! 0 ≤ o 0 ∧ o 0 ≤ c! 1) ∨ ¬ (c! 0 ≤ o 1 ∧ o 1 ≤ c! 1)) :
    Refuses mamaBatch o ∧ (mama (R := R)).NewRefuses o := by
  have hb : mamaBad o = true := by
    unfold mamaBad
    rcases h with h | h
    · simp only [Bool.or_eq_true, Bool.not_eq_true', Bool.and_eq_false_iff, decide_eq_false_iff_not]
      by_cases h1 : c! 0 ≤ o 0
      · exact Or.inl (Or.inr fun h2 => h ⟨h1, h2⟩)
      · exact Or.inl (Or.inl h1)
    · simp only [Bool.or_eq_true, Bool.not_eq_true', Bool.and_eq_false_iff, decide_eq_false_iff_not]
      by_cases h1 : c! 0 ≤ o 1
      · exact Or.inr (Or.inr fun h2 => h ⟨h1, h2⟩)
      · exact Or.inr (Or.inl h1)
  exact ⟨fun xs => by simp [mamaBatch, hb], by simp [Indicator.NewRefuses, mama, mamaNew, hb]⟩
theorem mama_stream_eq_batch (o : Nat → R) (h : mamaBad o = false) : (mama (R := R)).StreamEqBatch o 6 :=
  streamEqBatch_of (mama_run o h) (mama_stream_run o h)
theorem mama_chunks (o : Nat → R) : (mama (R := R)).ChunkInvariant o := chunkInvariant_of (fun k => mamaPhases_ordered k) o

/-- With a price buffer of fewer than four bars the stream of arsi fails an assertion on its sixth bar. -/
theorem arsi_stream_err (o : Nat → R) (m : Nat) (h0 : ¬ o 0 ≤ c! 0) (hm : toInt (o 0 * c! 50 + c! 1) = .ok (m : Int)) (h1 : 1 ≤ m)
    (h4 : m < 4) (chunks : List (List R)) (hN : 6 ≤ chunks.flatten.length) :
    (arsi (R := R)).session o chunks = .error .assertFail := by
  have : Inhabited R := ⟨c! 0⟩
  obtain ⟨x, hx⟩ := exists_pre chunks.flatten
  refine session_err (I := arsi) (k := (o 0 : R)) (p := -5) (s0 := hdTraj m x 0) ?_ (arsiPhases_ordered _) x (hdTraj m x) (fun _ => []) _ 5 rfl
    (fun n hn => ?_) ?_ chunks.flatten.length chunks hx (by omega)
  · simp only [arsi, arsiNew, arsiStart]
    rw [if_neg h0, hm, bind_ok, HdS.make_after (hdSig twoPi (hdSmooth 5 x)), bind_ok, Ring.make_after x m (by omega), bind_ok]
    rfl
  · simp only [barStep, arsi, arsiPhases, List.find?]
    rw [decide_eq_true (by omega)]
    simp only [hdTraj, Ring.after_set x m (by omega) n (x n) rfl, bind_ok, pure_eq, Ring.now_step, show n - 5 = 0 by omega,
        show n + 1 - 5 = 0 by omega]
  · simp only [barStep, arsi, arsiPhases, List.find?]
    rw [decide_eq_false (by omega)]
    simp only [hdTraj, Ring.after_set x m (by omega) 5 (x 5) rfl, bind_ok, pure_eq, Ring.now_cur x m (by omega) 5]
    by_cases hm1 : m = 1
    · rw [Ring.now_get_err x m (by omega) 5 1 (by omega)]
      rfl
    by_cases hm2 : m = 2
    · rw [Ring.now_get x m 5 1 1 rfl (by omega) (by omega), bind_ok, Ring.now_get_err x m (by omega) 5 2 (by omega)]
      rfl
    · rw [Ring.now_get x m 5 1 1 rfl (by omega) (by omega), bind_ok, Ring.now_get x m 5 2 2 rfl (by omega) (by omega), bind_ok,
        Ring.now_get_err x m (by omega) 5 3 (by omega)]
      rfl

end Any

section Exact
variable {R : Type} [Field R] [LinearOrder R] [IsStrictOrderedRing R] [CMath R]

/-! ### Exact arithmetic -/

theorem back_eq (h : Nat → R) (t k : Nat) : back h t k = barsAgo h t k := by
  unfold back barsAgo
  split <;> simp

/-- The signals of the model, as the specification names them. -/
def sigOf (g : Nat → HdV R) : Signals R :=
  ⟨fun t => (g t).det, fun t => (g t).i1, fun t => (g t).q1, fun t => (g t).i2, fun t => (g t).q2, fun t => (g t).re, fun t => (g t).im,
   fun t => (g t).per, fun t => (g t).sp⟩

theorem homodyne_sig (turn : R) (v : Nat → R) : Homodyne turn v (sigOf (hdSig turn v)) := by
  have e := fun t => hdSig_eqs turn v t
  generalize hdSig turn v = g at e ⊢
  have hv : (fun k => (g k).sm) = v := funext fun t => (e t).sm
  constructor <;> intro t
  · simpa [sigOf, hilbertT, adjust, back_eq, hv, (e t).sm] using (e t).det
  · simpa [sigOf, hilbertT, adjust, back_eq] using (e t).q1
  · simpa [sigOf, hilbertT, adjust, back_eq] using (e t).i1
  · simpa [sigOf, hilbertT, adjust, back_eq] using (e t).i2
  · simpa [sigOf, hilbertT, adjust, back_eq] using (e t).q2
  · simpa [sigOf, back_eq] using (e t).re
  · simpa [sigOf, back_eq] using (e t).im
  · have h := (e t).per
    unfold hdCand at h
    by_cases hz : (g t).im ≠ 0 ∧ (g t).re ≠ 0
    · rw [if_pos (by simpa using hz)] at h
      rw [if_pos (show (sigOf g).im t ≠ 0 ∧ (sigOf g).re t ≠ 0 from hz)]
      simpa [sigOf, back_eq, hdClamp, limitPeriod, stdMax_eq, stdMin_eq] using h
    · rw [if_neg (by simpa using hz)] at h
      rw [if_neg (show ¬ ((sigOf g).im t ≠ 0 ∧ (sigOf g).re t ≠ 0) from hz)]
      simpa [sigOf, back_eq, hdClamp, limitPeriod, stdMax_eq, stdMin_eq] using h
  · simpa [sigOf, back_eq] using (e t).sp

theorem barsAgo_nonneg (h : Nat → R) (t k : Nat) (hh : ∀ j, j < t → 0 ≤ h j) (hk : 1 ≤ k) : 0 ≤ barsAgo h t k := by
  unfold barsAgo
  split
  · exact hh _ (by omega)
  · exact le_rfl

theorem barsAgo_le (h : Nat → R) (b : R) (hb : 0 ≤ b) (t k : Nat) (hh : ∀ j, j < t → h j ≤ b) (hk : 1 ≤ k) : barsAgo h t k ≤ b := by
  unfold barsAgo
  split
  · exact hh _ (by omega)
  · exact hb

theorem barsAgo_congr (h g : Nat → R) (t k : Nat) (hh : ∀ j, j < t → h j = g j) (hk : 1 ≤ k) : barsAgo h t k = barsAgo g t k := by
  unfold barsAgo
  split
  · exact hh _ (by omega)
  · rfl

theorem barsAgo_mul (a : R) (h g : Nat → R) (t k : Nat) (hh : ∀ j, j < t → h j = a * g j) (hk : 1 ≤ k) : barsAgo h t k = a * barsAgo g t k := by
  unfold barsAgo
  split
  · exact hh _ (by omega)
  · simp

theorem limitPeriod_bounds (p prev : R) : 6 ≤ limitPeriod p prev ∧ limitPeriod p prev ≤ 50 := by
  unfold limitPeriod
  exact ⟨le_min (le_max_right _ _) (by norm_num), min_le_right _ _⟩

theorem period_bounds {turn : R} {v : Nat → R} {s : Signals R} (h : Homodyne turn v s) (t : Nat) :
    12 / 10 ≤ s.period t ∧ s.period t ≤ 50 := by
  induction t using Nat.strong_induction_on with
  | _ t ih =>
    have b := limitPeriod_bounds (if s.im t ≠ 0 ∧ s.re t ≠ 0 then turn / CMath.atan (s.im t / s.re t) else barsAgo s.period t 2)
      (barsAgo s.period t 1)
    have n := barsAgo_nonneg s.period t 1 (fun j hj => by linarith [(ih j hj).1]) le_rfl
    have u := barsAgo_le s.period 50 (by norm_num) t 1 (fun j hj => (ih j hj).2) le_rfl
    rw [h.period t]
    constructor <;> linarith [b.1, b.2]

theorem smoothPeriod_bounds {turn : R} {v : Nat → R} {s : Signals R} (h : Homodyne turn v s) (t : Nat) :
    396 / 1000 ≤ s.smoothPeriod t ∧ s.smoothPeriod t ≤ 50 := by
  induction t using Nat.strong_induction_on with
  | _ t ih =>
    have b := period_bounds h t
    have n := barsAgo_nonneg s.smoothPeriod t 1 (fun j hj => by linarith [(ih j hj).1]) le_rfl
    have u := barsAgo_le s.smoothPeriod 50 (by norm_num) t 1 (fun j hj => (ih j hj).2) le_rfl
    rw [h.smoothPeriod t]
    constructor <;> linarith [b.1, b.2]

/-- Ehlers' equations leave no choice. -/
theorem homodyne_unique {turn : R} {v : Nat → R} {s s' : Signals R} (h : Homodyne turn v s) (h' : Homodyne turn v s') : s = s' := by
  have key : ∀ t, s.detrender t = s'.detrender t ∧ s.i1 t = s'.i1 t ∧ s.q1 t = s'.q1 t ∧ s.i2 t = s'.i2 t ∧ s.q2 t = s'.q2 t ∧
      s.re t = s'.re t ∧ s.im t = s'.im t ∧ s.period t = s'.period t ∧ s.smoothPeriod t = s'.smoothPeriod t := by
    intro t
    induction t using Nat.strong_induction_on with
    | _ t ih =>
      have ed := fun k hk => barsAgo_congr s.detrender s'.detrender t k (fun j hj => (ih j hj).1) hk
      have ei := fun k hk => barsAgo_congr s.i1 s'.i1 t k (fun j hj => (ih j hj).2.1) hk
      have eq := fun k hk => barsAgo_congr s.q1 s'.q1 t k (fun j hj => (ih j hj).2.2.1) hk
      have ei2 := fun k hk => barsAgo_congr s.i2 s'.i2 t k (fun j hj => (ih j hj).2.2.2.1) hk
      have eq2 := fun k hk => barsAgo_congr s.q2 s'.q2 t k (fun j hj => (ih j hj).2.2.2.2.1) hk
      have er := fun k hk => barsAgo_congr s.re s'.re t k (fun j hj => (ih j hj).2.2.2.2.2.1) hk
      have em := fun k hk => barsAgo_congr s.im s'.im t k (fun j hj => (ih j hj).2.2.2.2.2.2.1) hk
      have ep := fun k hk => barsAgo_congr s.period s'.period t k (fun j hj => (ih j hj).2.2.2.2.2.2.2.1) hk
      have es := fun k hk => barsAgo_congr s.smoothPeriod s'.smoothPeriod t k (fun j hj => (ih j hj).2.2.2.2.2.2.2.2) hk
      have a : adjust s.period t = adjust s'.period t := by unfold adjust; rw [ep 1 le_rfl]
      have d : s.detrender t = s'.detrender t := by rw [h.detrender, h'.detrender, a]
      have i : s.i1 t = s'.i1 t := by rw [h.i1, h'.i1, ed 3 (by omega)]
      have q : s.q1 t = s'.q1 t := by
        rw [h.q1, h'.q1, a]; unfold hilbertT; rw [d, ed 2 (by omega), ed 4 (by omega), ed 6 (by omega)]
      have i2 : s.i2 t = s'.i2 t := by
        rw [h.i2, h'.i2, a, i]; unfold hilbertT; rw [q, eq 2 (by omega), eq 4 (by omega), eq 6 (by omega), ei2 1 le_rfl]
      have q2 : s.q2 t = s'.q2 t := by
        rw [h.q2, h'.q2, a, q]; unfold hilbertT; rw [i, ei 2 (by omega), ei 4 (by omega), ei 6 (by omega), eq2 1 le_rfl]
      have r : s.re t = s'.re t := by rw [h.re, h'.re, i2, q2, ei2 1 le_rfl, eq2 1 le_rfl, er 1 le_rfl]
      have m : s.im t = s'.im t := by rw [h.im, h'.im, i2, q2, ei2 1 le_rfl, eq2 1 le_rfl, em 1 le_rfl]
      have p : s.period t = s'.period t := by rw [h.period, h'.period, m, r, ep 1 le_rfl, ep 2 (by omega)]
      exact ⟨d, i, q, i2, q2, r, m, p, by rw [h.smoothPeriod, h'.smoothPeriod, p, es 1 le_rfl]⟩
  cases s
  cases s'
  simp only [Signals.mk.injEq]
  exact ⟨funext fun t => (key t).1, funext fun t => (key t).2.1, funext fun t => (key t).2.2.1, funext fun t => (key t).2.2.2.1,
    funext fun t => (key t).2.2.2.2.1, funext fun t => (key t).2.2.2.2.2.1, funext fun t => (key t).2.2.2.2.2.2.1,
    funext fun t => (key t).2.2.2.2.2.2.2.1, funext fun t => (key t).2.2.2.2.2.2.2.2⟩

/-- Scaling the prices leaves the measured periods alone. -/
theorem homodyne_scale {turn a : R} (ha : a ≠ 0) {v : Nat → R} {s s' : Signals R} (h : Homodyne turn v s)
    (h' : Homodyne turn (fun t => a * v t) s') (t : Nat) : s'.smoothPeriod t = s.smoothPeriod t := by
  refine congrFun (congrArg Signals.smoothPeriod (homodyne_unique h' (s' := ⟨fun t => a * s.detrender t, fun t => a * s.i1 t, fun t => a * s.q1 t, fun t => a * s.i2 t,
    fun t => a * s.q2 t, fun t => a ^ 2 * s.re t, fun t => a ^ 2 * s.im t, s.period, s.smoothPeriod⟩) ?_)) t
  have hm : ∀ (b : R) (g : Nat → R) t k, barsAgo (fun t => b * g t) t k = b * barsAgo g t k := by
    intro b g t k; unfold barsAgo; split <;> simp
  have hh : ∀ (b : R) (g : Nat → R) t, hilbertT (fun t => b * g t) t = b * hilbertT g t := by
    intro b g t; unfold hilbertT; simp only [hm]; ring
  constructor <;> intro t <;> simp only [hm, hh]
  · rw [h.detrender]; ring
  · rw [h.q1]; ring
  · rw [h.i1]
  · rw [h.i2]; ring
  · rw [h.q2]; ring
  · rw [h.re]; ring
  · rw [h.im]; ring
  · have e1 : a ^ 2 * s.im t ≠ 0 ∧ a ^ 2 * s.re t ≠ 0 ↔ s.im t ≠ 0 ∧ s.re t ≠ 0 := by simp [ha]
    have e2 : a ^ 2 * s.im t / (a ^ 2 * s.re t) = s.im t / s.re t := mul_div_mul_left _ _ (pow_ne_zero 2 ha)
    simp only [e1, e2]
    exact h.period t
  · exact h.smoothPeriod t

theorem hdSmooth_eq (d : Nat) (x : Nat → R) : hdSmooth d x = fun t => weighted4 x (d + t) := by
  funext t; simp [hdSmooth, smooth4, weighted4]

theorem hdVal_of {x : Nat → R} {s : Signals R} (h : Homodyne (2 * CMath.acos (-1)) (fun t => weighted4 x (5 + t)) s) (t : Nat) :
    hdVal x t = s.smoothPeriod t := by
  have e := homodyne_sig (twoPi : R) (hdSmooth 5 x)
  rw [hdSmooth_eq] at e
  have : (twoPi : R) = 2 * CMath.acos (-1) := by simp [twoPi]
  rw [this] at e
  rw [homodyne_unique h e]
  unfold hdVal
  rw [hdSmooth_eq]
  simp [sigOf, twoPi]

theorem homodyne_exists (turn : R) (v : Nat → R) : ∃ s, Homodyne turn v s := ⟨_, homodyne_sig turn v⟩

/-- hd writes the smoothed dominant cycle period of the homodyne discriminator. -/
theorem hd_value (o : Nat → R) (x : Nat → R) (s : Signals R)
    (h : Homodyne (2 * CMath.acos (-1)) (fun t => weighted4 x (5 + t)) s) (N : Nat) :
    hdBatch o (pre x N) = .ok (.okay, pre s.smoothPeriod (N - 5)) := by
  rw [hd_run o x N, show hdVal x = s.smoothPeriod from funext (hdVal_of h)]

theorem hdVal_bounds (x : Nat → R) (t : Nat) : 396 / 1000 ≤ hdVal x t ∧ hdVal x t ≤ 50 := by
  obtain ⟨s, h⟩ := homodyne_exists (2 * CMath.acos (-1)) (fun t => weighted4 x (5 + t))
  rw [hdVal_of h]
  exact smoothPeriod_bounds h t

/-- The period hd reports is at most 50 bars (and never below 0.396). -/
theorem hd_range (o : Nat → R) (xs out : List R) (h : hdBatch o xs = .ok (.okay, out)) : ∀ v ∈ out, 396 / 1000 ≤ v ∧ v ≤ 50 := by
  obtain ⟨x, hx⟩ := exists_pre xs
  rw [hx, hd_run o x] at h
  cases h
  intro v hv
  obtain ⟨j, _, rfl⟩ := List.mem_map.1 hv
  exact hdVal_bounds x j

/-- The period does not depend on the currency unit. -/
theorem hd_scale (o : Nat → R) (a : R) (ha : a ≠ 0) (xs : List R) : hdBatch o (xs.map (a * ·)) = hdBatch o xs := by
  obtain ⟨x, hx⟩ := exists_pre xs
  have e : xs.map (a * ·) = pre (fun i => a * x i) xs.length := by
    conv_lhs => rw [hx]
    simp [pre]
  rw [e, hx, length_pre, hd_run o, hd_run o]
  congr 3
  funext t
  obtain ⟨s, h⟩ := homodyne_exists (2 * CMath.acos (-1)) (fun t => weighted4 x (5 + t))
  obtain ⟨s', h'⟩ := homodyne_exists (2 * CMath.acos (-1)) (fun t => weighted4 (fun i => a * x i) (5 + t))
  rw [hdVal_of h, hdVal_of h']
  have : (fun t => weighted4 (fun i => a * x i) (5 + t)) = fun t => a * weighted4 x (5 + t) := by
    funext t; unfold weighted4; ring
  rw [this] at h'
  exact homodyne_scale ha h h' t

/-! arsi -/

theorem arsiUp_eq (x : Nat → R) (i n : Nat) : arsiUp x i n = ∑ j ∈ range n, max 0 (x (i - j) - x (i - j - 1)) := by
  induction n with
  | zero => simp [arsiUp]
  | succ n ih => rw [arsiUp, ih, sum_range_succ, stdMax_eq]; simp
theorem arsiDown_eq (x : Nat → R) (i n : Nat) : arsiDown x i n = ∑ j ∈ range n, -(min 0 (x (i - j) - x (i - j - 1))) := by
  induction n with
  | zero => simp [arsiDown]
  | succ n ih => rw [arsiDown, ih, sum_range_succ, stdMin_eq]; simp

theorem strength_bounds (x : Nat → R) (i n : Nat) : 0 ≤ strength x i n ∧ strength x i n ≤ 100 := by
  unfold strength
  have hu : 0 ≤ ∑ j ∈ range n, max 0 (x (i - j) - x (i - j - 1)) := sum_nonneg fun j _ => le_max_left _ _
  have hd : 0 ≤ ∑ j ∈ range n, -(min 0 (x (i - j) - x (i - j - 1))) := sum_nonneg fun j _ => by
    have := min_le_left 0 (x (i - j) - x (i - j - 1)); linarith
  simp only []
  split
  · exact ⟨le_rfl, by norm_num⟩
  · rename_i hz
    have hp : 0 < (∑ j ∈ range n, max 0 (x (i - j) - x (i - j - 1))) + ∑ j ∈ range n, -(min 0 (x (i - j) - x (i - j - 1))) :=
      lt_of_le_of_ne (by linarith) (Ne.symm hz)
    exact ⟨div_nonneg (by linarith) hp.le, (div_le_iff₀ hp).2 (by linarith)⟩

variable [LawfulTrunc R] [LawfulRound R]

theorem trunc_toInt {v : R} (h0 : 0 ≤ v) (h1 : v < 2147483648) : toInt v = .ok (CMath.trunc v) := by
  have h := LawfulRound.trunc_nonneg v h0
  have a : (-1 : Int) < CMath.trunc v := by
    have : ((-1 : Int) : R) < ((CMath.trunc v : Int) : R) := by push_cast; linarith [h.2]
    exact_mod_cast this
  have b : CMath.trunc v < (2147483648 : Int) := by
    have : ((CMath.trunc v : Int) : R) < ((2147483648 : Int) : R) := by push_cast; linarith [h.1]
    exact_mod_cast this
  unfold toInt i32
  rw [if_pos (by omega)]

theorem arsi_toInt (c : R) (h0 : 0 < c) (h1 : c * 50 < 2147483648) (x : Nat → R) (t : Nat) :
    toInt (c * hdVal x t) = .ok (CMath.trunc (c * hdVal x t)) := by
  have b := hdVal_bounds x t
  exact trunc_toInt (mul_nonneg h0.le (by linarith [b.1])) (by nlinarith [b.2])

/-- arsi for a cycle part in (0, 2^31/50).  Missing: larger parts, for which `(int)(cycpart * period)` can overflow
(`arsi_overflow`). -/
theorem arsi_contract_partial (o : Nat → R) (h0 : 0 < o 0) (h1 : o 0 * 50 < 2147483648) : Contract arsiStart arsiBatch o 5 :=
  (arsi_run o (by simpa using h0) (arsi_toInt (o 0) h0 h1)).contract rfl

/-- arsi is the relative strength over `⌊cycpart · period⌋` bars (as many as there are), where the period is that of hd. -/
theorem arsi_value_partial (o : Nat → R) (h0 : 0 < o 0) (h1 : o 0 * 50 < 2147483648) (x : Nat → R) (s : Signals R)
    (h : Homodyne (2 * CMath.acos (-1)) (fun t => weighted4 x (5 + t)) s) (len : Nat → Nat)
    (hl : ∀ t, (len t : R) ≤ o 0 * s.smoothPeriod t ∧ o 0 * s.smoothPeriod t < len t + 1) (N : Nat) :
    arsiBatch o (pre x N) = .ok (.okay, pre (fun t => strength x (5 + t) (min (len t) (5 + t))) (N - 5)) := by
  rw [arsi_run o (by simpa using h0) (arsi_toInt (o 0) h0 h1) x N]
  congr 3
  funext t
  have b := hdVal_bounds x t
  have e : arsiLen (o 0) x t = min (len t) (5 + t) := by
    have ht : toInt (o 0 * hdVal x t) = .ok (len t : Int) := by
      rw [hdVal_of h]
      refine toInt_of_within (hl t).1 (hl t).2 ?_
      have : (len t : R) < 2147483648 := by
        have := (hl t).1; rw [← hdVal_of h] at this; nlinarith [b.2]
      have : len t < 2147483648 := by exact_mod_cast this
      omega
    rw [arsi_toInt (o 0) h0 h1 x t] at ht
    unfold arsiLen
    rw [Except.ok.inj ht]
    omega
  unfold arsiVal arsiOut strength
  rw [e, arsiUp_eq, arsiDown_eq]
  simp

/-- arsi stays within 0..100. -/
theorem arsi_range (o : Nat → R) (xs out : List R) (h : arsiBatch o xs = .ok (.okay, out)) : ∀ v ∈ out, 0 ≤ v ∧ v ≤ 100 := by
  by_cases h0 : 0 < o 0
  · obtain ⟨x, hx⟩ := exists_pre xs
    rcases arsi_dich o (by simpa using h0) x xs.length with hr | hr
    · rw [hx, hr] at h
      cases h
      intro v hv
      obtain ⟨j, _, rfl⟩ := List.mem_map.1 hv
      have := strength_bounds x (5 + j) (arsiLen (o 0) x j)
      unfold strength at this
      unfold arsiVal arsiOut
      rw [arsiUp_eq, arsiDown_eq]
      simpa using this
    · rw [hx, hr] at h
      cases h
  · rw [(arsi_refuses o (by simpa using h0)).1 xs] at h
    cases h

/-- Whatever the cycle part, arsi either succeeds and writes all its values or `(int)(cycpart * period)` overflows. -/
theorem arsi_safe_partial (o : Nat → R) (h0 : 0 < o 0) (xs : List R) :
    (∃ out, arsiBatch o xs = .ok (.okay, out) ∧ out.length = xs.length - 5) ∨ arsiBatch o xs = .error .intRange := by
  obtain ⟨x, hx⟩ := exists_pre xs
  rcases arsi_dich o (by simpa using h0) x xs.length with hr | hr
  · exact Or.inl ⟨_, by rw [← hr, ← hx], by simp [pre]⟩
  · exact Or.inr (by rw [hx, hr])

/-- From the sixth bar on, a huge cycle part overflows `int`. -/
theorem arsi_overflow (o : Nat → R) (h : 2147483648 ≤ o 0 * (396 / 1000)) (xs : List R) (hN : 6 ≤ xs.length) :
    arsiBatch o xs = .error .intRange := by
  have h0 : 0 < o 0 := by
    by_contra hn
    have : o 0 * (396 / 1000) ≤ 0 := mul_nonpos_of_nonpos_of_nonneg (not_lt.1 hn) (by norm_num)
    linarith
  obtain ⟨x, hx⟩ := exists_pre xs
  have b := hdVal_bounds x 0
  have hov : toInt (o 0 * hdVal x 0) = .error .intRange := by
    have hv : 2147483648 ≤ o 0 * hdVal x 0 := le_trans h (mul_le_mul_of_nonneg_left b.1 h0.le)
    have ht := LawfulRound.trunc_nonneg (o 0 * hdVal x 0) (by linarith)
    have : ((2147483647 : Int) : R) < ((CMath.trunc (o 0 * hdVal x 0) : Int) : R) := by push_cast; linarith [ht.2]
    have : (2147483647 : Int) < CMath.trunc (o 0 * hdVal x 0) := by exact_mod_cast this
    unfold toInt i32
    rw [if_neg (by omega)]
  rw [hx]
  exact arsi_run_err o (by simpa using h0) x xs.length 0 (by omega) (fun t ht => absurd ht (by omega)) hov

theorem arsi_ring {c : R} (h0 : 3 ≤ c * 50) (h1 : c * 50 + 1 < 2147483648) : ∃ m : Nat, toInt (c * (c! 50 : R) + c! 1) = .ok (m : Int) ∧ 4 ≤ m ∧
    ∀ (x : Nat → R) t, CMath.trunc (c * hdVal x t) < (m : Int) := by
  have e : c * (c! 50 : R) + c! 1 = c * 50 + 1 := by simp
  have ht := LawfulRound.trunc_nonneg (c * 50 + 1) (by linarith)
  have h4 : (3 : Int) < CMath.trunc (c * 50 + 1) := by
    have : ((3 : Int) : R) < ((CMath.trunc (c * 50 + 1) : Int) : R) := by push_cast; linarith [ht.2]
    exact_mod_cast this
  refine ⟨(CMath.trunc (c * 50 + 1)).toNat, ?_, by omega, fun x t => ?_⟩
  · rw [e, trunc_toInt (by linarith) h1, Int.toNat_of_nonneg (by omega)]
  · rw [Int.toNat_of_nonneg (by omega)]
    have hc : 0 < c := by linarith
    have b := hdVal_bounds x t
    have hv := LawfulRound.trunc_nonneg (c * hdVal x t) (mul_nonneg hc.le (by linarith [b.1]))
    have : ((CMath.trunc (c * hdVal x t) : Int) : R) < ((CMath.trunc (c * 50 + 1) : Int) : R) := by
      nlinarith [b.2, ht.2, hv.1]
    exact_mod_cast this

/-- The stream of arsi equals the batch when the cycle part is at least 0.06 (the price buffer then holds four bars).
Below that see `arsi_stream_violates`. -/
theorem arsi_stream_eq_batch_partial (o : Nat → R) (h0 : 3 ≤ o 0 * 50) (h1 : o 0 * 50 + 1 < 2147483648) :
    (arsi (R := R)).StreamEqBatch o 5 := by
  have hc : 0 < o 0 := by linarith
  obtain ⟨m, hm, h4, hl⟩ := arsi_ring h0 h1
  exact streamEqBatch_of (arsi_run o (by simpa using hc) (arsi_toInt (o 0) hc (by linarith)))
    (arsi_stream_run o m (by simpa using hc) hm h4 (arsi_toInt (o 0) hc (by linarith)) hl)

/-- For a cycle part below 0.06, which batch and stream both accept, the stream fails an assertion at its sixth bar while
the batch call succeeds. -/
theorem arsi_stream_violates (o : Nat → R) (h0 : 0 < o 0) (h1 : o 0 * 50 < 3) (chunks : List (List R))
    (hN : 6 ≤ chunks.flatten.length) : (arsi (R := R)).session o chunks = .error .assertFail ∧
      ∃ out, arsiBatch o chunks.flatten = .ok (.okay, out) ∧ out.length = chunks.flatten.length - 5 := by
  refine ⟨?_, (arsi_contract_partial o h0 (by linarith)).safe _⟩
  have e : o 0 * (c! 50 : R) + c! 1 = o 0 * 50 + 1 := by simp
  have ht := LawfulRound.trunc_nonneg (o 0 * 50 + 1) (by linarith)
  have h4 : (0 : Int) < CMath.trunc (o 0 * 50 + 1) := by
    have : ((0 : Int) : R) < ((CMath.trunc (o 0 * 50 + 1) : Int) : R) := by push_cast; linarith [ht.2]
    exact_mod_cast this
  have h5 : CMath.trunc (o 0 * 50 + 1) < (4 : Int) := by
    have : ((CMath.trunc (o 0 * 50 + 1) : Int) : R) < ((4 : Int) : R) := by push_cast; linarith [ht.1]
    exact_mod_cast this
  refine arsi_stream_err o (CMath.trunc (o 0 * 50 + 1)).toNat (by simpa using h0) ?_ (by omega) (by omega) chunks hN
  rw [e, trunc_toInt (by linarith) (by linarith), Int.toNat_of_nonneg (by omega)]

end Exact

section Mama
variable {R : Type} [Field R] [LinearOrder R] [IsStrictOrderedRing R] [CMath R]

/-! mama -/

theorem mamaBad_eq (o : Nat → R) (h0 : 0 ≤ o 0 ∧ o 0 ≤ 1) (h1 : 0 ≤ o 1 ∧ o 1 ≤ 1) : mamaBad o = false := by
  simp [mamaBad, h0.1, h0.2, h1.1, h1.2]

/-- mama writes the adaptive averages of the specification. -/
theorem mama_value (o : Nat → R) (h0 : 0 ≤ o 0 ∧ o 0 ≤ 1) (h1 : 0 ≤ o 1 ∧ o 1 ≤ 1) (x : Nat → R) :
    ∃ (s : Signals R) (phase alpha mama fama : Nat → R), Homodyne 360 (fun t => weighted4 x (6 + t)) s ∧
      AdaptivePair (o 0) (o 1) (fun t => x (6 + t)) s phase alpha mama fama ∧
      ∀ N, mamaBatch o (pre x N) = .ok (.okay, pre (fun t => ⟨mama t, fama t⟩) (N - 6)) := by
  refine ⟨sigOf (mamaG x), mamaPhase x, mamaAlpha (o 0) (o 1) x, mamaM (o 0) (o 1) x, mamaF (o 0) (o 1) x, ?_, ?_,
    fun N => mama_run o (mamaBad_eq o h0 h1) x N⟩
  · have := homodyne_sig (c! 360 : R) (hdSmooth 6 x)
    rw [hdSmooth_eq] at this
    simpa [mamaG, hdSmooth_eq] using this
  · constructor <;> intro t
    · by_cases hz : (mamaG x t).i1 = 0
      · rw [if_pos (show (sigOf (mamaG x)).i1 t = 0 from hz)]; simp [mamaPhase, hz]
      · rw [if_neg (show ¬ (sigOf (mamaG x)).i1 t = 0 from hz)]; simp [mamaPhase, hz, sigOf]
    · simp [mamaAlpha, stdMax_eq, back_eq]
    · rw [mamaM_eq, back_eq]; simp
    · rw [mamaF_eq, back_eq]
      simp only [Int.cast_ofNat, Int.cast_one]
      ring

theorem alpha_bounds {fast slow : R} (h0 : 0 ≤ fast ∧ fast ≤ 1) (h1 : 0 ≤ slow ∧ slow ≤ 1) (d : R) :
    0 ≤ max slow (fast / max 1 d) ∧ max slow (fast / max 1 d) ≤ 1 := by
  have h : (1 : R) ≤ max 1 d := le_max_left _ _
  refine ⟨le_trans h1.1 (le_max_left _ _), max_le h1.2 ((div_le_one (by linarith)).2 (by linarith [h0.2]))⟩

/-- Both averages of mama stay between bounds of the prices and zero, where they start. -/
theorem mama_within (o : Nat → R) (h0 : 0 ≤ o 0 ∧ o 0 ≤ 1) (h1 : 0 ≤ o 1 ∧ o 1 ≤ 1) (lo hi : R) (hlo : lo ≤ 0) (hhi : 0 ≤ hi)
    (xs : List R) (hx : ∀ v ∈ xs, lo ≤ v ∧ v ≤ hi) (out : List (MamaOut R)) (h : mamaBatch o xs = .ok (.okay, out)) :
    ∀ v ∈ out, lo ≤ v.mama ∧ v.mama ≤ hi ∧ lo ≤ v.fama ∧ v.fama ≤ hi := by
  obtain ⟨x, hxs⟩ := exists_pre xs
  obtain ⟨s, ph, al, m, f, _, hp, hb⟩ := mama_value o h0 h1 x
  rw [hxs, hb] at h
  cases h
  have hxx : ∀ i, i < xs.length → lo ≤ x i ∧ x i ≤ hi := by
    intro i hi'
    refine hx _ ?_
    rw [hxs]
    exact List.mem_map.2 ⟨i, List.mem_range.2 hi', rfl⟩
  have hal : ∀ t, 0 ≤ al t ∧ al t ≤ 1 := fun t => by rw [hp.alpha_eq]; exact alpha_bounds h0 h1 _
  have key : ∀ t, 6 + t < xs.length → lo ≤ m t ∧ m t ≤ hi ∧ lo ≤ f t ∧ f t ≤ hi := by
    intro t
    induction t with
    | zero =>
      intro ht
      have hm := hp.mama_eq 0
      have hf := hp.fama_eq 0
      simp only [barsAgo, show ¬ 1 ≤ 0 by omega, if_false] at hm hf
      have a := hal 0
      have b := hxx (6 + 0) ht
      have hm1 : lo ≤ m 0 := by rw [hm]; nlinarith [a.1, a.2, b.1]
      have hm2 : m 0 ≤ hi := by rw [hm]; nlinarith [a.1, a.2, b.2]
      exact ⟨hm1, hm2, by rw [hf]; nlinarith [a.1, a.2], by rw [hf]; nlinarith [a.1, a.2]⟩
    | succ t ih =>
      intro ht
      have c := ih (by omega)
      have hm := hp.mama_eq (t + 1)
      have hf := hp.fama_eq (t + 1)
      simp only [barsAgo, show 1 ≤ t + 1 by omega, if_true, Nat.add_sub_cancel] at hm hf
      have a := hal (t + 1)
      have b := hxx (6 + (t + 1)) ht
      have hm1 : lo ≤ m (t + 1) := by rw [hm]; nlinarith [a.1, a.2, b.1, c.1]
      have hm2 : m (t + 1) ≤ hi := by rw [hm]; nlinarith [a.1, a.2, b.2, c.2.1]
      exact ⟨hm1, hm2, by rw [hf]; nlinarith [a.1, a.2, c.2.2.1], by rw [hf]; nlinarith [a.1, a.2, c.2.2.2]⟩
  intro v hv
  obtain ⟨j, hj, rfl⟩ := List.mem_map.1 hv
  have := List.mem_range.1 hj
  exact key j (by omega)

/-- The reference of mama gives the same averages on a series whose products `re` and `im` vanish at none of its bars after the
second of the main loop.  Missing: where one vanishes the two versions fall back to different periods. -/
theorem mama_ref_eq_batch_partial (o : Nat → R) (h0 : 0 ≤ o 0 ∧ o 0 ≤ 1) (h1 : 0 ≤ o 1 ∧ o 1 ≤ 1) (x : Nat → R) (N : Nat)
    (s : Signals R) (h : Homodyne 360 (fun t => weighted4 x (6 + t)) s)
    (hg : ∀ t, 2 ≤ t → 6 + t < N → s.im t ≠ 0 ∧ s.re t ≠ 0) : mamaRef o (pre x N) = mamaBatch o (pre x N) := by
  have e := homodyne_sig (c! 360 : R) (hdSmooth 6 x)
  rw [hdSmooth_eq, show (c! 360 : R) = 360 by simp] at e
  obtain rfl := homodyne_unique h e
  have eg : mamaG x = hdSig 360 fun t => weighted4 x (6 + t) := by simp [mamaG, hdSmooth_eq]
  rw [mama_run o (mamaBad_eq o h0 h1) x N]
  refine mamaRef_run (fun a b => ?_) o ?_ ?_ x N (fun t ht hN => ?_)
  · rw [stdMax_eq]
    split
    · exact max_eq_left (le_of_lt ‹_›)
    · exact max_eq_right (not_lt.1 ‹_›)
  · simpa using h0
  · simpa using h1
  · have := hg t ht hN
    rw [eg]
    simpa [sigOf] using this

end Mama

/-! ### Concrete cases -/

section Examples

def cyc : List ℚ := [10, 11, 13, 12, 11, 10, 12, 14, 13, 11]

example : hdBatch (opts []) cyc = .ok (.okay, [99 / 250, 24453 / 25000, 4053951 / 2500000, 563862717 / 250000000,
    71058642039 / 25000000000]) := by decide +kernel
example : (hd (R := ℚ)).session (opts []) [cyc.take 3, cyc.drop 3] = (hd (R := ℚ)).session (opts []) [cyc] := by decide +kernel
example : (0 : ℚ) < opts [2] 0 ∧ opts [2] 0 * 50 < (2147483648 : ℚ) := by decide +kernel
example : arsiBatch (opts [2]) cyc = .ok (.okay, [0, 100, 80, 200 / 3, 50]) := by decide +kernel
example : (arsi (R := ℚ)).session (opts [1 / 20]) [cyc] = .error .assertFail := by decide +kernel
example : arsiBatch (opts [10000000000]) cyc = .error .intRange := by decide +kernel
example : mamaBad (opts [1 / 2, 1 / 20] : Nat → ℚ) = false := by decide +kernel
example : mamaBatch (opts [1 / 2, 1 / 20]) cyc = .ok (.okay, [⟨6, 3 / 2⟩, ⟨10, 29 / 8⟩, ⟨23 / 2, 179 / 32⟩, ⟨45 / 4, 897 / 128⟩]) := by decide +kernel
example : mamaRef (opts [1 / 2, 1 / 20]) cyc = mamaBatch (opts [1 / 2, 1 / 20]) cyc := by decide +kernel

end Examples
end Verif
