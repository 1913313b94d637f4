/- C89: how far an average trails behind a steady trend. -/
import Verif.Spec.Lag
import Verif.Props.Converge
import Verif.Props.UnitsFits
import Verif.Props.Weighted
import Verif.Props.Trend
import Verif.Props.Sum
import Verif.Props.Bars

namespace Verif
open Spec Finset
open Converge (Tends approaches)
set_option linter.unusedSectionVars false

section
variable {R : Type} [Field R] [LinearOrder R] [IsStrictOrderedRing R]

theorem pre_get? {α : Type} {y : Nat → α} {n j : Nat} {v : α} (h : (pre y n)[j]? = some v) : v = y j := by
  simp only [pre, List.getElem?_map, Option.map_eq_some_iff] at h
  obtain ⟨i, hi, rfl⟩ := h
  obtain ⟨_, e⟩ := List.getElem?_eq_some_iff.1 hi
  rw [← e]; simp

/-- A straight line in the window that starts at bar `j`: height `c` there, slope `b`. -/
theorem lags {batch : (Nat → R) → List R → M (Ret × List R)} {o : Nat → R} {s : Nat} {y : (Nat → R) → Nat → R} {L : R} (hc : Computes batch o s y)
    (h : ∀ x j c b, (∀ k : Nat, x (j + k) = c + b * (k : R)) → y x j = c + b * ((s : R) - L)) : Lags batch o s L := by
  intro x m a b hx N
  refine ⟨_, hc x N, by simp [pre], fun j v hj hv => ?_⟩
  rw [pre_get? hv, h x j (a + b * j) b fun k => by rw [hx _ (by omega)]; push_cast; ring]
  push_cast; ring

/-- The outputs without the slope approach a constant. -/
theorem lagsEnd {batch : (Nat → R) → List R → M (Ret × List R)} {o : Nat → R} {s : Nat} {y : (Nat → R) → Nat → R} {L : R} (hc : Computes batch o s y)
    (h : ∀ x a b, Tends (fun j => x j - b * (j : R)) a → Tends (fun j => y x j - b * (j : R)) (a + b * ((s : R) - L))) : LagsInTheEnd batch o s L := by
  intro x m a b hx ε hε
  obtain ⟨n0, h⟩ := h x a b (.of_rests ⟨m, fun i hi => by show x i - b * (i : R) = a; rw [hx i hi]; ring⟩) ε hε
  refine ⟨n0, fun N => ⟨_, hc x N, by simp [pre], fun j v hj hv => ?_⟩⟩
  have := h j hj
  rw [pre_get? hv]
  rwa [show y x j - (a + b * (((j + s : Nat) : R) - L)) = y x j - b * (j : R) - (a + b * ((s : R) - L)) by push_cast; ring]

/-- A function that lags exactly does so in the end. -/
theorem Spec.Lags.inTheEnd {batch : (Nat → R) → List R → M (Ret × List R)} {o : Nat → R} {s : Nat} {L : R} (h : Lags batch o s L) :
    LagsInTheEnd batch o s L := by
  intro x m a b hx ε hε
  refine ⟨m, fun N => ?_⟩
  obtain ⟨ys, h1, h2, h3⟩ := h x m a b hx N
  exact ⟨ys, h1, h2, fun j y hj hy => by rw [h3 j y hj hy, sub_self, abs_zero]; exact hε.le⟩

/-- No function has two lags. -/
theorem lag_unique {batch : (Nat → R) → List R → M (Ret × List R)} {o : Nat → R} {s : Nat} {L L' : R} (h : LagsInTheEnd batch o s L)
    (h' : LagsInTheEnd batch o s L') : L = L' := by
  by_contra hne
  have hd : 0 < |L - L'| := abs_pos.2 (sub_ne_zero.2 hne)
  have ht : Trends (fun i : Nat => (i : R)) 0 0 1 := fun i _ => by simp
  obtain ⟨n, h⟩ := h _ 0 0 1 ht (|L - L'| / 3) (by positivity)
  obtain ⟨n', h'⟩ := h' _ 0 0 1 ht (|L - L'| / 3) (by positivity)
  obtain ⟨ys, e, hl, h⟩ := h (n + n' + s + 1)
  obtain ⟨ys', e', hl', h'⟩ := h' (n + n' + s + 1)
  rw [e] at e'
  cases e'
  have hj : n + n' < ys.length := by omega
  have a1 := abs_le.1 (h (n + n') _ (by omega) (List.getElem?_eq_getElem hj))
  have a2 := abs_le.1 (h' (n + n') _ (by omega) (List.getElem?_eq_getElem hj))
  rcases abs_cases (L - L') with ⟨e1, _⟩ | ⟨e1, _⟩ <;> rw [e1] at a1 a2 hd <;> linarith [a1.1, a1.2, a2.1, a2.2]

/-! ### Windows of a straight line -/

theorem winMean_line {p : Nat} (hp : 1 ≤ p) {x : Nat → R} {j : Nat} {c b : R} (h : ∀ k : Nat, x (j + k) = c + b * (k : R)) :
    winMean p x j = c + b * (((p : R) - 1) / 2) := by
  have hp' : (p : R) ≠ 0 := by exact_mod_cast (by omega : p ≠ 0)
  have g : ∀ n : Nat, ∑ k ∈ range n, (c + b * (k : R)) = n * c + b * ((n : R) * ((n : R) - 1) / 2) := by
    intro n
    induction n with
    | zero => simp
    | succ n ih => rw [sum_range_succ, ih]; push_cast; ring
  unfold winMean winSum
  rw [sum_congr rfl fun k _ => h k, g]
  field_simp

theorem wma_line [CMath R] {p : Nat} (hp : 1 ≤ p) {x : Nat → R} {j : Nat} {c b : R} (h : ∀ k : Nat, x (j + k) = c + b * (k : R)) :
    wma p x j = c + b * (2 * ((p : R) - 1) / 3) := by
  have hp' : (1 : R) ≤ p := by exact_mod_cast hp
  have g : ∀ n : Nat, ∑ k ∈ range n, ((k + 1 : Nat) : R) * (c + b * (k : R)) =
      (1 + n) * n / 2 * c + b * ((n : R) * ((n : R) - 1) * ((n : R) + 1) / 3) := by
    intro n
    induction n with
    | zero => simp
    | succ n ih => rw [sum_range_succ, ih]; push_cast; ring
  unfold wma winWSum
  rw [sum_congr rfl fun k _ => by rw [h k], g, ← gauss]
  have : (1 + (p : R)) ≠ 0 := by linarith
  have : (p : R) ≠ 0 := by linarith
  field_simp
  ring

/-- Symmetric weights put the mean in the middle of the window. -/
theorem trima_line {p : Nat} (hp : 1 ≤ p) {x : Nat → R} {j : Nat} {c b : R} (h : ∀ k : Nat, x (j + k) = c + b * (k : R)) :
    trima p x j = c + b * (((p : R) - 1) / 2) := by
  unfold trima
  have hw : 0 < ∑ k ∈ range p, (triWeight p k : R) := by
    refine sum_pos (fun k hk => ?_) ⟨0, by simp; omega⟩
    have := mem_range.1 hk
    have : 0 < triWeight p k := by unfold triWeight; omega
    exact_mod_cast this
  have hs : ∑ k ∈ range p, (triWeight p k : R) * (k : R) = ((p : R) - 1) / 2 * ∑ k ∈ range p, (triWeight p k : R) := by
    have e : ∑ k ∈ range p, (triWeight p k : R) * (k : R) = ∑ k ∈ range p, (triWeight p k : R) * (((p : R) - 1) - k) := by
      rw [← sum_range_reflect]
      refine sum_congr rfl fun k hk => ?_
      have hk := mem_range.1 hk
      rw [show triWeight p (p - 1 - k) = triWeight p k by unfold triWeight; omega, show p - 1 - k = p - (k + 1) by omega, Nat.cast_sub (by omega)]
      push_cast; ring
    have e2 : ∑ k ∈ range p, (triWeight p k : R) * (((p : R) - 1) - k) =
        ((p : R) - 1) * ∑ k ∈ range p, (triWeight p k : R) - ∑ k ∈ range p, (triWeight p k : R) * (k : R) := by
      rw [mul_sum, ← sum_sub_distrib]
      exact sum_congr rfl fun k _ => by ring
    linarith
  rw [sum_congr rfl fun k _ => by rw [h k], div_eq_iff hw.ne']
  have : ∑ k ∈ range p, (triWeight p k : R) * (c + b * (k : R)) =
      c * ∑ k ∈ range p, (triWeight p k : R) + b * ∑ k ∈ range p, (triWeight p k : R) * (k : R) := by
    rw [mul_sum, mul_sum, ← sum_add_distrib]
    exact sum_congr rfl fun k _ => by ring
  rw [this, hs]; ring

theorem line_best {p : Nat} {x : Nat → R} {j : Nat} {c b : R} (h : ∀ k : Nat, x (j + k) = c + b * (k : R)) : IsBestLine p x j (c - b) b := by
  intro a' b'
  unfold sqErr
  refine (le_of_eq (sum_eq_zero fun k _ => ?_)).trans (sum_nonneg fun k _ => ?_)
  · rw [h k]; push_cast; ring
  · positivity
end

section
variable {R : Type} [Field R] [LinearOrder R] [IsStrictOrderedRing R] [CMath R]

/-- sma trails by half its window. -/
theorem sma_lags (o : Nat → R) (p : Nat) (hc : toInt (o 0) = .ok (p : Int)) (hp : 1 ≤ p) : Lags smaBatch o (p - 1) (((p : R) - 1) / 2) :=
  lags (sma_value o p hc hp) fun x j c b h => by rw [winMean_line hp h, Nat.cast_sub hp]; push_cast; ring

/-- wma trails by a third of its window. -/
theorem wma_lags_partial (o : Nat → R) (p : Nat) (hc : toInt (o 0) = .ok (p : Int)) (hp : 1 ≤ p) (hb : p * (p + 1) ≤ 2147483647) :
    Lags wmaBatch o (p - 1) (((p : R) - 1) / 3) :=
  lags (wma_value_partial o p hc hp hb) fun x j c b h => by
    show wma p x j = _
    rw [wma_line hp h, Nat.cast_sub hp]; push_cast; ring

theorem trima_lags_partial (o : Nat → R) (p : Nat) (hc : toInt (o 0) = .ok (p : Int)) (hp : 1 ≤ p)
    (hb : ((p / 2 : Nat) + 1) * ((p / 2 : Nat) + 1) ≤ 2147483647) : Lags trimaBatch o (p - 1) (((p : R) - 1) / 2) :=
  lags (trima_value_partial o p hc hp hb) fun x j c b h => by rw [trima_line hp h, Nat.cast_sub hp]; push_cast; ring

theorem dwma_lags_partial [LawfulTrunc R] [LawfulRound R] (o : Nat → R) (p : Nat) (ho : o 0 = ((p : Int) : R))
    (hp : 1 ≤ p) (hb : p ≤ 1073741824) : Lags dwmaBatch o (2 * (p - 1)) (2 * ((p : R) - 1) / 3) :=
  lags (dwma_value_partial o p ho hp hb) fun x j c b h => by
    rw [wma_line hp (c := c + b * (2 * ((p : R) - 1) / 3)) (b := b) fun k => by
      rw [wma_line hp (c := c + b * k) (b := b) fun i => by rw [Nat.add_assoc, h]; push_cast; ring]; ring]
    push_cast [Nat.cast_sub hp]; ring

/-- lma, meant to have no lag, trails by a sixth of its window. -/
theorem lma_lags [LawfulTrunc R] [LawfulRound R] (o : Nat → R) (p : Nat) (hc : toInt (o 0) = .ok (p : Int)) (hp : 1 ≤ p) :
    Lags lmaBatch o (p - 1) (((p : R) - 1) / 6) :=
  lags (lma_value o p hc hp) fun x j c b h => by rw [wma_line hp h, winMean_line hp h, Nat.cast_sub hp]; push_cast; ring

/-- hma: a third of the root of its period less two bars, three for odd periods. -/
theorem hma_lags_partial (o : Nat → R) (p s : Nat) (hc : toInt (o 0) = .ok (p : Int))
    (hs : toInt (CMath.sqrt ((p : Int) : R)) = .ok (s : Int)) (hp : 2 ≤ p) (hs1 : 1 ≤ s) (hsp : s ≤ p)
    (hb : p * (p + 1) ≤ 2147483647) : Lags hmaBatch o (p + s - 2) (((s : R) - 2 - ((p % 2 : Nat) : R)) / 3) :=
  lags (hma_value_partial o p s hc hs hp hs1 hsp hb) fun x j c b h => by
    have hd : (p : R) = 2 * ((p / 2 : Nat) : R) + ((p % 2 : Nat) : R) := by exact_mod_cast (Nat.div_add_mod p 2).symm
    rw [wma_line hs1 (c := c + b * (2 * ((p - p / 2 : Nat) : R) + 4 * (((p / 2 : Nat) : R) - 1) / 3 - 2 * ((p : R) - 1) / 3)) (b := b) fun k => by
      rw [wma_line (p := p / 2) (by omega) (c := c + b * (k + (p - p / 2 : Nat))) (b := b) fun i => by
          rw [show j + k + (p - p / 2) + i = j + (k + (p - p / 2) + i) by omega, h]; push_cast; ring,
        wma_line (p := p) (by omega) (c := c + b * k) (b := b) fun i => by rw [Nat.add_assoc, h]; push_cast; ring]
      ring]
    rw [show p + s - 2 = p - 1 + (s - 1) by omega]
    push_cast [Nat.cast_sub (show 1 ≤ p by omega), Nat.cast_sub hs1, Nat.cast_sub (Nat.div_le_self p 2)]
    generalize ((p / 2 : Nat) : R) = q at *
    generalize ((p % 2 : Nat) : R) = r at *
    rw [hd]
    ring

/-- linreg does not trail. -/
theorem linreg_lags_partial (o : Nat → R) (p : Nat) (hc : toInt (o 0) = .ok (p : Int)) (hp : 2 ≤ p) (hpp : p * p ≤ 2147483647) :
    Lags linregBatch o (p - 1) 0 := by
  obtain ⟨A, B, h1, h2⟩ := linreg_value_partial o p hc hp hpp
  refine lags h2 fun x j c b h => ?_
  obtain ⟨e1, e2⟩ := bestLine_unique hp (h1 x j) (line_best h)
  rw [e1, e2, Nat.cast_sub (by omega)]; push_cast; ring

/-- linregintercept shows the oldest bar of the window. -/
theorem linregintercept_lags_partial (o : Nat → R) (p : Nat) (hc : toInt (o 0) = .ok (p : Int)) (hp : 2 ≤ p) (hpp : p * p ≤ 2147483647) :
    Lags linreginterceptBatch o (p - 1) ((p : R) - 1) := by
  obtain ⟨A, B, h1, h2⟩ := linregintercept_value_partial o p hc hp hpp
  refine lags h2 fun x j c b h => ?_
  obtain ⟨e1, e2⟩ := bestLine_unique hp (h1 x j) (line_best h)
  rw [e1, e2, Nat.cast_sub (by omega)]; push_cast; ring

/-- tsf is one bar ahead. -/
theorem tsf_lags_partial (o : Nat → R) (p : Nat) (hc : toInt (o 0) = .ok (p : Int)) (hp : 2 ≤ p) (hpp : p * p ≤ 2147483647) :
    Lags tsfBatch o (p - 1) (-1) := by
  obtain ⟨A, B, h1, h2⟩ := tsf_value_partial o p hc hp hpp
  refine lags h2 fun x j c b h => ?_
  obtain ⟨e1, e2⟩ := bestLine_unique hp (h1 x j) (line_best h)
  rw [e1, e2, Nat.cast_sub (by omega)]; push_cast; ring

theorem lag_lags (o : Nat → R) (p : Nat) (hc : toInt (o 0) = .ok (p : Int)) : Lags lagBatch o p (p : R) :=
  lags (lag_value o p hc) fun x j c b h => by have := h 0; rw [Nat.add_zero] at this; rw [this]; push_cast; ring

variable [Archimedean R]

/-! ### Exponential averages -/

/-- An exponential average of weight `α` adds `1 / α - 1` bars to the lag of its input. -/
theorem ema_detrend {α : R} (h0 : 0 < α) (h2 : α < 2) {u : Nat → R} {b c : R} (h : Tends (fun j => u j - b * (j : R)) c) :
    Tends (fun j => Spec.ema α u j - b * (j : R)) (c - b * (1 / α - 1)) := by
  have e := Converge.first (f := fun j => Spec.ema α u j - b * (j : R)) (r := 1 - α)
    (v := fun n => α * (u (n + 1) - b * ((n + 1 : Nat) : R)) - (1 - α) * b) (abs_lt.2 ⟨by linarith, by linarith⟩)
    (fun n => by show Spec.ema α u (n + 1) - _ = _; rw [Spec.ema]; push_cast; ring) (((h.shift 1).mul_const α).sub (.const _))
  rwa [show (α * c - (1 - α) * b) / (1 - (1 - α)) = c - b * (1 / α - 1) by rw [sub_sub_cancel]; field_simp] at e

/-- Looking `k` bars ahead. -/
theorem detrend_shift {u : Nat → R} {b c : R} (k : Nat) (h : Tends (fun j => u j - b * (j : R)) c) :
    Tends (fun j => u (j + k) - b * (j : R)) (c + b * k) := by
  have := (h.shift k).add (.const (b * k))
  exact this.congr 0 fun n _ => by push_cast; ring

theorem emaCoef_inv (p : Nat) : 1 / (emaCoef p : R) - 1 = ((p : R) - 1) / 2 := by
  unfold emaCoef
  rw [one_div_div]; ring

theorem emaCoef_detrend {p : Nat} (hp : 1 ≤ p) {u : Nat → R} {b c : R} (h : Tends (fun j => u j - b * (j : R)) c) :
    Tends (fun j => Spec.ema (emaCoef p) u j - b * (j : R)) (c - b * (((p : R) - 1) / 2)) := by
  rw [← emaCoef_inv]
  exact ema_detrend (Converge.emaCoef_pos p) (Converge.emaCoef_lt p hp) h

/-- ema trails as much as sma of the same period. -/
theorem ema_lags (o : Nat → R) (p : Nat) (hc : toInt (o 0) = .ok (p : Int)) (hp : 1 ≤ p) : LagsInTheEnd emaBatch o 0 (((p : R) - 1) / 2) :=
  lagsEnd (ema_value o p hc hp) fun x a b h => by
    have := emaCoef_detrend hp h
    rwa [show a + b * (((0 : Nat) : R) - ((p : R) - 1) / 2) = a - b * (((p : R) - 1) / 2) by push_cast; ring]

/-- wilders trails twice as much. -/
theorem wilders_lags (o : Nat → R) (p : Nat) (hc : toInt (o 0) = .ok (p : Int)) (hp : 1 ≤ p) : LagsInTheEnd wildersBatch o (p - 1) ((p : R) - 1) :=
  lagsEnd (wilders_value o p hc hp) fun x a b h => by
    have hp' : (1 : R) ≤ p := by exact_mod_cast hp
    have hi : Tends (fun k => (if k = 0 then winMean p x 0 else x (k - 1 + p)) - b * (k : R)) (a + b * ((p - 1 : Nat) : R)) := by
      refine (detrend_shift (p - 1) h).congr 1 fun n hn => ?_
      rw [if_neg (by omega), show n - 1 + p = n + (p - 1) by omega]
    have := ema_detrend (α := 1 / (p : R)) (by positivity) (by rw [div_lt_iff₀ (by linarith)]; linarith) hi
    rwa [one_div_one_div, show a + b * ((p - 1 : Nat) : R) - b * ((p : R) - 1) = a + b * (((p - 1 : Nat) : R) - ((p : R) - 1)) by ring] at this

/-- dema does not trail. -/
theorem dema_lags_partial (o : Nat → R) (p : Nat) (hc : toInt (o 0) = .ok (p : Int)) (hp : 1 ≤ p) (hb : (p - 1) * 2 ≤ 2147483647) :
    LagsInTheEnd demaBatch o ((p - 1) * 2) 0 :=
  lagsEnd (dema_value_partial o p hc hp hb) fun x a b h => by
    have e1 := emaCoef_detrend hp h
    have e2 := emaCoef_detrend hp (detrend_shift (p - 1) e1)
    have r := ((detrend_shift ((p - 1) * 2) e1).mul_const 2).sub (detrend_shift (p - 1) e2)
    rw [show 2 * (a - b * (((p : R) - 1) / 2) + b * ((((p - 1) * 2 : Nat)) : R)) -
        (a - b * (((p : R) - 1) / 2) + b * ((p - 1 : Nat) : R) - b * (((p : R) - 1) / 2) + b * ((p - 1 : Nat) : R)) =
      a + b * ((((p - 1) * 2 : Nat) : R) - 0) by push_cast; ring] at r
    exact r.congr 0 fun n _ => by dsimp only; unfold shift; ring

/-- tema does not trail. -/
theorem tema_lags_partial (o : Nat → R) (p : Nat) (hc : toInt (o 0) = .ok (p : Int)) (hp : 1 ≤ p) (hb : (p - 1) * 3 ≤ 2147483647) :
    LagsInTheEnd temaBatch o ((p - 1) * 3) 0 :=
  lagsEnd (tema_value_partial o p hc hp hb) fun x a b h => by
    have e1 := emaCoef_detrend hp h
    have e2 := emaCoef_detrend hp (detrend_shift (p - 1) e1)
    have e3 := emaCoef_detrend hp (detrend_shift (p - 1) e2)
    have r := (((detrend_shift ((p - 1) * 3) e1).mul_const 3).sub ((detrend_shift ((p - 1) * 2) e2).mul_const 3)).add (detrend_shift (p - 1) e3)
    have k : ∀ D P : R, 3 * (a - b * D + b * (P * 3)) - 3 * (a - b * D + b * P - b * D + b * (P * 2)) +
        (a - b * D + b * P - b * D + b * P - b * D + b * P) = a + b * (P * 3 - 0) := fun D P => by ring
    have hk := k (((p : R) - 1) / 2) ((p - 1 : Nat) : R)
    push_cast at r hk ⊢
    rw [hk] at r
    exact r.congr 0 fun n _ => by unfold shift; ring

/-- zlema, meant to have no lag, trails by half a bar if the period is even. -/
theorem zlema_lags_partial (o : Nat → R) (p : Nat) (hc : toInt (o 0) = .ok (p : Int)) (hp : 3 ≤ p) :
    LagsInTheEnd zlemaBatch o ((p - 1) / 2 - 1) ((((p - 1) % 2 : Nat) : R) / 2) :=
  lagsEnd (zlema_value_partial o p hc hp) fun x a b h => by
    have hd : ((p - 1 : Nat) : R) = 2 * (((p - 1) / 2 : Nat) : R) + (((p - 1) % 2 : Nat) : R) := by exact_mod_cast (Nat.div_add_mod (p - 1) 2).symm
    rw [Nat.cast_sub (by omega)] at hd
    have hi : Tends (fun k => (if k = 0 then x ((p - 1) / 2 - 1) else 2 * x (k - 1 + (p - 1) / 2) - x (k - 1)) - b * (k : R))
        (2 * (a + b * (((p - 1) / 2 : Nat) : R)) - a - b) := by
      refine .of_shift 1 ?_
      refine ((((detrend_shift ((p - 1) / 2) h).mul_const 2).sub h).sub (.const b)).congr 0 fun n _ => ?_
      rw [if_neg (by omega), Nat.add_sub_cancel]; push_cast; ring
    have := emaCoef_detrend (p := p) (by omega) hi
    rw [Nat.cast_sub (show 1 ≤ (p - 1) / 2 by omega)]
    rw [show 2 * (a + b * (((p - 1) / 2 : Nat) : R)) - a - b - b * (((p : R) - 1) / 2) =
      a + b * ((((p - 1) / 2 : Nat) : R) - ((1 : Nat) : R) - (((p - 1) % 2 : Nat) : R) / 2) by push_cast at hd ⊢; rw [hd]; ring] at this
    exact this

/-- Each of the three stages of t3 adds `1 - v` times the lag of its average. -/
theorem t3_lags (o : Nat → R) (h0 : 1 ≤ o 0) (h1 : 0 ≤ o 1) : LagsInTheEnd t3Batch o 0 (3 * (1 - o 1) * ((o 0 - 1) / 2)) :=
  lagsEnd (t3_value o h0 h1) fun x a b h => by
    have hα : (0 : R) < 2 / (o 0 + 1) := by positivity
    have hα2 : 2 / (o 0 + 1) < 2 := by rw [div_lt_iff₀ (by linarith)]; linarith
    have hD : 1 / (2 / (o 0 + 1)) - 1 = (o 0 - 1) / 2 := by rw [one_div_div]; ring
    have g {u : Nat → R} {c : R} (h : Tends (fun j => u j - b * (j : R)) c) :
        Tends (fun j => gdema (2 / (o 0 + 1)) (o 1) u j - b * (j : R)) (c - b * ((1 - o 1) * ((o 0 - 1) / 2))) := by
      have e1 := ema_detrend hα hα2 h
      have e2 := ema_detrend hα hα2 e1
      rw [hD] at e1 e2
      have r := (e1.mul_const (1 + o 1)).sub (e2.mul_const (o 1))
      rw [show (1 + o 1) * (c - b * ((o 0 - 1) / 2)) - o 1 * (c - b * ((o 0 - 1) / 2) - b * ((o 0 - 1) / 2)) =
        c - b * ((1 - o 1) * ((o 0 - 1) / 2)) by ring] at r
      exact r.congr 0 fun n _ => by unfold gdema; ring
    have r := g (g (g h))
    rw [show a + b * (((0 : Nat) : R) - 3 * (1 - o 1) * ((o 0 - 1) / 2)) = a - b * ((1 - o 1) * ((o 0 - 1) / 2)) - b * ((1 - o 1) * ((o 0 - 1) / 2)) -
      b * ((1 - o 1) * ((o 0 - 1) / 2)) by push_cast; ring]
    exact r

/-- kama moves at its fastest on a line: five quarters of a bar. -/
theorem kama_lags [LawfulAbs R] [LawfulPow R] (o : Nat → R) (p : Nat) (hc : toInt (o 0) = .ok (p : Int)) (hp : 1 ≤ p) :
    LagsInTheEnd kamaBatch o (p - 1) (5 / 4) := by
  intro x m a b hx ε hε
  have hE : ∀ j, m ≤ j → effRatio p x j = 1 := by
    intro j hj
    have hs : ∑ k ∈ range p, |x (j + k + 1) - x (j + k)| = p * |b| := by
      rw [sum_congr rfl fun k _ => by rw [hx (j + k + 1) (by omega), hx (j + k) (by omega),
        show a + b * ((j + k + 1 : Nat) : R) - (a + b * ((j + k : Nat) : R)) = b by push_cast; ring], sum_const, card_range, nsmul_eq_mul]
    unfold effRatio
    rw [hs]
    split
    · rfl
    · rename_i hne
      rw [hx (j + p) (by omega), hx j hj, show a + b * ((j + p : Nat) : R) - (a + b * (j : R)) = p * b by push_cast; ring, abs_mul, Nat.abs_cast,
        div_self hne]
  have e := Converge.first (f := fun j => Spec.kama p x (j + m) - b * ((j + m : Nat) : R)) (r := 5 / 9) (V := 4 / 9 * (a + b * ((p : R) - 1)) - 5 / 9 * b)
    (v := fun _ => 4 / 9 * (a + b * ((p : R) - 1)) - 5 / 9 * b) (abs_lt.2 ⟨by norm_num, by norm_num⟩) (fun n => ?_) (.const _)
  · have e' : Tends (fun j => Spec.kama p x j - b * (j : R)) (a + b * (((p - 1 : Nat) : R) - 5 / 4)) := by
      refine .of_shift m ?_
      rwa [show (4 / 9 * (a + b * ((p : R) - 1)) - 5 / 9 * b) / (1 - 5 / 9) = a + b * (((p - 1 : Nat) : R) - 5 / 4) by
        rw [Nat.cast_sub hp]; push_cast; ring] at e
    obtain ⟨n0, h⟩ := e' ε hε
    refine ⟨n0, fun N => ⟨_, kama_value o p hc hp x N, by simp [pre], fun j v hj hv => ?_⟩⟩
    have := h j hj
    rw [pre_get? hv]
    rwa [show Spec.kama p x j - (a + b * (((j + (p - 1) : Nat) : R) - 5 / 4)) =
      Spec.kama p x j - b * (j : R) - (a + b * (((p - 1 : Nat) : R) - 5 / 4)) by push_cast; ring]
  · show Spec.kama p x (n + 1 + m) - _ = _
    rw [show n + 1 + m = n + m + 1 by omega, Spec.kama, hE (n + m) (by omega), hx (n + m + p) (by omega)]
    push_cast; ring

/-- ehma: half the root of the period less one bar. -/
theorem ehma_lags [LawfulSqrt R] (o : Nat → R) (p : Nat) (hc : toInt (o 0) = .ok (p : Int)) (hp : 1 ≤ p) :
    LagsInTheEnd ehmaBatch o 0 (CMath.sqrt (p : R) / 2 - 1) :=
  lagsEnd (ehma_value o p hc hp) fun x a b h => by
    have hp' : (1 : R) ≤ p := by exact_mod_cast hp
    have hs0 := LawfulSqrt.sqrt_nonneg (p : R) (by linarith)
    have hs1 := LawfulSqrt.sqrt_sq (p : R) (by linarith)
    generalize CMath.sqrt (p : R) = s at *
    have hs : 1 ≤ s := by nlinarith
    have k : ∀ n : R, 0 < n → 0 < 2 / (n + 1) ∧ 2 / (n + 1) < 2 ∧ 1 / (2 / (n + 1)) - 1 = (n - 1) / 2 := fun n hn =>
      ⟨by positivity, by rw [div_lt_iff₀ (by linarith)]; linarith, by rw [one_div_div]; ring⟩
    obtain ⟨a1, a2, a3⟩ := k ((p : R) / 2) (by linarith)
    obtain ⟨b1, b2, b3⟩ := k (p : R) (by linarith)
    obtain ⟨c1, c2, c3⟩ := k s (by linarith)
    have r1 := ema_detrend a1 a2 h
    have r2 := ema_detrend b1 b2 h
    rw [a3] at r1
    rw [b3] at r2
    have r3 := ema_detrend c1 c2 (((r1.mul_const 2).sub r2).congr 0
      (g := fun j => (2 * Spec.ema (2 / ((p : R) / 2 + 1)) x j - Spec.ema (2 / ((p : R) + 1)) x j) - b * (j : R)) fun n _ => by ring)
    rw [c3, show 2 * (a - b * (((p : R) / 2 - 1) / 2)) - (a - b * (((p : R) - 1) / 2)) - b * ((s - 1) / 2) =
      a + b * (((0 : Nat) : R) - (s / 2 - 1)) by push_cast; ring] at r3
    exact r3

/-! ### Differences of averages -/

/-- apo approaches the slope times half the difference of its periods. -/
theorem apo_trend (o : Nat → R) (p q : Nat) (hc : toInt (o 0) = .ok (p : Int)) (hc1 : toInt (o 1) = .ok (q : Int))
    (hp : 1 ≤ p) (hq : 2 ≤ q) (hpq : p ≤ q) (x : Nat → R) (m : Nat) (a b : R) (hx : Trends x m a b) :
    Approaches apoBatch o 1 x id (b * (((q : R) - p) / 2)) :=
  approaches 0 (fun N _ => apo_value o p q hc hc1 hp hq hpq x N) (by
    have h : Tends (fun j => x j - b * (j : R)) a := .of_rests ⟨m, fun i hi => by show x i - b * (i : R) = a; rw [hx i hi]; ring⟩
    have r := ((emaCoef_detrend hp h).sub (emaCoef_detrend (p := q) (by omega) h)).shift 1
    rw [show a - b * (((p : R) - 1) / 2) - (a - b * (((q : R) - 1) / 2)) = b * (((q : R) - p) / 2) by ring] at r
    exact r.congr 0 fun n _ => by simp only [id]; ring)

/-- mom is the slope times the period. -/
theorem mom_trend (o : Nat → R) (p : Nat) (hc : toInt (o 0) = .ok (p : Int)) (hp : 1 ≤ p) (x : Nat → R) (m : Nat) (a b : R) (hx : Trends x m a b) :
    Approaches momBatch o p x id (b * p) :=
  approaches 0 (fun N _ => mom_value o p hc hp x N) (.of_rests ⟨m, fun j hj => by
    show x (j + p) - x j = _
    rw [hx _ (by omega), hx _ hj]; push_cast; ring⟩)
end

/-! ### Concrete runs -/
example : Lags smaBatch (opts [3] : Nat → ℚ) 2 1 := by
  have := sma_lags (opts [3] : Nat → ℚ) 3 (by decide +kernel) (by omega)
  norm_num at this; exact this
example : smaBatch (opts [3] : Nat → ℚ) [9, 10, 12, 14, 16] = .ok (.okay, [31/3, 12, 14]) := by decide +kernel
example : Trends (fun i => if i = 0 then (9 : ℚ) else 8 + 2 * i) 1 8 2 := fun i hi => by simp; omega
example : LagsInTheEnd emaBatch (opts [3] : Nat → ℚ) 0 1 := by
  have := ema_lags (opts [3] : Nat → ℚ) 3 (by decide +kernel) (by omega)
  norm_num at this; exact this
example : lmaBatch (opts [7] : Nat → ℚ) [0, 1, 2, 3, 4, 5, 6, 7] = .ok (.okay, [5, 6]) := by decide +kernel

end Verif
