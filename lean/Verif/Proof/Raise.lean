/- From value theorems to raised and added series. -/
import Verif.Spec.Raise
import Verif.Proof.Units

namespace Verif.Raise
open Spec Finset
open Spec (ema wilder)
set_option linter.unusedSectionVars false
variable {R ρ ω : Type}

theorem forall₂_pre {α β : Type} {r : α → β → Prop} {u : Nat → α} {v : Nat → β} (N : Nat) (h : ∀ j, r (u j) (v j)) :
    List.Forall₂ r (pre u N) (pre v N) := by
  rw [List.forall₂_iff_get]
  exact ⟨by simp, fun i h1 h2 => by simpa [pre] using h i⟩

theorem getD_in {α : Type} (l : List α) (d : α) {i : Nat} (h : i < l.length) : l.getD i d = l[i] := by simp [List.getD_eq_getElem?_getD, h]
theorem getD_out {α : Type} (l : List α) (d : α) {i : Nat} (h : l.length ≤ i) : l.getD i d = d := by simp [List.getD_eq_getElem?_getD, h]
theorem eq_pre {α : Type} (l : List α) (d : α) (N : Nat) (h : l.length = N) : l = pre (fun i => l.getD i d) N :=
  List.ext_getElem (by simp [h]) fun i h1 h2 => by simp only [pre, List.getElem_map, List.getElem_range, getD_in l d h1]

theorem rises {batch : (Nat → R) → List ρ → M (Ret × List ω)} {o : Nat → R} {s : Nat} [Inhabited ρ] [Below ρ] [Below ω] {Q : ρ → Prop}
    {val : (Nat → ρ) → Nat → ω} (hc : Computes batch o s val)
    (h : ∀ x y, (∀ i, below (x i) (y i)) → (∀ i, Q (x i)) → (∀ i, Q (y i)) → ∀ j, below (val x j) (val y j)) : Rises batch o Q :=
  fun xs ys hb hx hy => by
    cases hb with
    | nil =>
      have e : batch o [] = .ok (.okay, []) := by have := hc (fun _ => default) 0; simpa [pre] using this
      exact ⟨[], [], e, e, List.Forall₂.nil⟩
    | @cons a b l l' hab hb =>
      have hl := hb.length_eq
      have ex : a :: l = pre (fun i => (a :: l).getD i a) (l.length + 1) := eq_pre _ _ _ (by simp)
      have ey : b :: l' = pre (fun i => (b :: l').getD i b) (l.length + 1) := eq_pre _ _ _ (by simp [hl])
      have hB := List.Forall₂.cons hab hb
      refine ⟨_, _, ex ▸ hc _ _, ey ▸ hc _ _, forall₂_pre _ (h _ _ (fun i => ?_) (fun i => ?_) fun i => ?_)⟩
      · by_cases hi : i < (a :: l).length
        · have hi' : i < (b :: l').length := by simpa [← hl] using hi
          rw [getD_in _ _ hi, getD_in _ _ hi']
          exact (List.forall₂_iff_get.1 hB).2 i hi hi'
        · have hi' : ¬ i < (b :: l').length := by simpa [← hl] using hi
          rw [getD_out _ _ (by omega), getD_out _ _ (by omega)]; exact hab
      · by_cases hi : i < (a :: l).length
        · rw [getD_in _ _ hi]; exact hx _ (List.getElem_mem _)
        · rw [getD_out _ _ (by omega)]; exact hx _ (by simp)
      · by_cases hi : i < (b :: l').length
        · rw [getD_in _ _ hi]; exact hy _ (List.getElem_mem _)
        · rw [getD_out _ _ (by omega)]; exact hy _ (by simp)

theorem rises_all {batch : (Nat → R) → List ρ → M (Ret × List ω)} {o : Nat → R} {s : Nat} [Inhabited ρ] [Below ρ] [Below ω]
    {val : (Nat → ρ) → Nat → ω} (hc : Computes batch o s val)
    (h : ∀ x y, (∀ i, below (x i) (y i)) → ∀ j, below (val x j) (val y j)) : Rises batch o := rises hc fun x y hb _ _ => h x y hb

theorem zipWith_pre {α : Type} (f : α → α → α) (x y : Nat → α) (N : Nat) : List.zipWith f (pre x N) (pre y N) = pre (fun i => f (x i) (y i)) N :=
  List.ext_getElem (by simp) fun i h1 h2 => by simp [pre]

theorem addsUp {batch : (Nat → R) → List ρ → M (Ret × List ω)} {o : Nat → R} {s : Nat} [Inhabited ρ] [Added ρ] [Added ω]
    {val : (Nat → ρ) → Nat → ω} (hc : Computes batch o s val)
    (h : ∀ x y j, val (fun i => added (x i) (y i)) j = added (val x j) (val y j)) : AddsUp batch o := fun xs ys hl => by
  obtain ⟨x, ex⟩ := exists_pre xs
  obtain ⟨y, ey⟩ := exists_pre ys
  rw [← hl] at ey
  refine ⟨_, _, by rw [ex]; exact hc x _, by rw [ey]; exact hc y _, by simp, ?_⟩
  rw [show List.zipWith added xs ys = pre (fun i => added (x i) (y i)) xs.length by
    conv_lhs => rw [ex, ey]
    exact zipWith_pre _ _ _ _, hc, zipWith_pre, funext (h x y)]

variable [Field R] [LinearOrder R] [IsStrictOrderedRing R] {x y z : Nat → R}

/-! ### Raised series -/
theorem winSum_le (h : ∀ i, x i ≤ y i) (p j : Nat) : winSum p x j ≤ winSum p y j := sum_le_sum fun k _ => h _
theorem winMean_le (h : ∀ i, x i ≤ y i) (p j : Nat) : winMean p x j ≤ winMean p y j :=
  div_le_div_of_nonneg_right (winSum_le h p j) (Nat.cast_nonneg _)
theorem winMax_le (h : ∀ i, x i ≤ y i) (p j : Nat) : winMax p x j ≤ winMax p y j :=
  sup'_le _ _ fun k hk => (h _).trans (le_sup' (fun k => y (j + k)) hk)
theorem winMin_le (h : ∀ i, x i ≤ y i) (p j : Nat) : winMin p x j ≤ winMin p y j :=
  le_inf' _ _ fun k hk => (inf'_le (fun k => x (j + k)) hk).trans (h _)
theorem ema_le {k : R} (h0 : 0 ≤ k) (h1 : k ≤ 1) (h : ∀ i, x i ≤ y i) (n : Nat) : ema k x n ≤ ema k y n := by
  induction n with
  | zero => exact h 0
  | succ n ih =>
    rw [ema, ema]
    have a := mul_le_mul_of_nonneg_left ih (by linarith : 0 ≤ 1 - k)
    have b := mul_le_mul_of_nonneg_left (h (n + 1)) h0
    linarith
theorem emaCoef_nonneg (p : Nat) : (0 : R) ≤ emaCoef p := by unfold emaCoef; positivity
theorem emaCoef_le {p : Nat} (hp : 1 ≤ p) : (emaCoef p : R) ≤ 1 := by
  have : (1 : R) ≤ p := by exact_mod_cast hp
  rw [emaCoef, div_le_one (by linarith)]; linarith
theorem wilder_le (h : ∀ i, x i ≤ y i) {p : Nat} (hp : 1 ≤ p) (n : Nat) : wilder p x n ≤ wilder p y n := by
  have : (1 : R) ≤ p := by exact_mod_cast hp
  refine ema_le (by positivity) ((div_le_one (by linarith)).2 this) (fun i => ?_) n
  split
  · exact winMean_le h p 0
  · exact h _
theorem weighted_le {w : Nat → R} (s : Finset Nat) (hw : ∀ k ∈ s, 0 ≤ w k) {a b : Nat → R} (h : ∀ k, a k ≤ b k) :
    (∑ k ∈ s, w k * a k) / ∑ k ∈ s, w k ≤ (∑ k ∈ s, w k * b k) / ∑ k ∈ s, w k :=
  div_le_div_of_nonneg_right (sum_le_sum fun k hk => mul_le_mul_of_nonneg_left (h k) (hw k hk)) (sum_nonneg hw)
theorem wma_le (h : ∀ i, x i ≤ y i) (p n : Nat) : wma p x n ≤ wma p y n := weighted_le _ (fun _ _ => Nat.cast_nonneg _) fun k => h (n + k)
theorem trima_le (h : ∀ i, x i ≤ y i) (p n : Nat) : trima p x n ≤ trima p y n := weighted_le _ (fun _ _ => Nat.cast_nonneg _) fun k => h (n + k)

/-! ### Added series -/
theorem winSum_add (h : ∀ i, z i = x i + y i) (p j : Nat) : winSum p z j = winSum p x j + winSum p y j := by
  simp only [winSum, h, sum_add_distrib]
theorem winMean_add (h : ∀ i, z i = x i + y i) (p j : Nat) : winMean p z j = winMean p x j + winMean p y j := by
  rw [winMean, winSum_add h, add_div]; rfl
theorem ema_add {k : R} (h : ∀ i, z i = x i + y i) (n : Nat) : ema k z n = ema k x n + ema k y n := by
  induction n with
  | zero => exact h 0
  | succ n ih => rw [ema, ema, ema, ih, h]; ring
theorem wilder_add (h : ∀ i, z i = x i + y i) (p n : Nat) : wilder p z n = wilder p x n + wilder p y n := by
  refine ema_add (fun i => ?_) n
  split
  · exact winMean_add h p 0
  · exact h _
theorem weighted_add {w : Nat → R} (s : Finset Nat) {a b c : Nat → R} (h : ∀ k, c k = a k + b k) :
    ∑ k ∈ s, w k * c k = ∑ k ∈ s, w k * a k + ∑ k ∈ s, w k * b k := by simp only [h, mul_add, sum_add_distrib]
theorem wma_add (h : ∀ i, z i = x i + y i) (p n : Nat) : wma p z n = wma p x n + wma p y n := by
  rw [wma, wma, wma, ← add_div, winWSum, weighted_add _ fun k => h (n + k)]; rfl
theorem trima_add (h : ∀ i, z i = x i + y i) (p n : Nat) : trima p z n = trima p x n + trima p y n := by
  rw [trima, trima, trima, ← add_div, weighted_add _ fun k => h (n + k)]
theorem sharpMean_add (h : ∀ i, z i = x i + y i) (p n : Nat) : sharpMean p z n = sharpMean p x n + sharpMean p y n := by
  rw [sharpMean, sharpMean, sharpMean, winMean_add h, weighted_add _ fun k => h (n + k)]; ring
theorem gdema_add {k v : R} (h : ∀ i, z i = x i + y i) (n : Nat) : gdema k v z n = gdema k v x n + gdema k v y n := by
  rw [gdema, gdema, gdema, ema_add h, ema_add (ema_add h)]; ring
theorem henderson_add (h : ∀ i, z i = x i + y i) (p n : Nat) : henderson p z n = henderson p x n + henderson p y n :=
  weighted_add _ fun k => h (n - k)
theorem powerMean_add [CMath R] {q : R} (h : ∀ i, z i = x i + y i) (p n : Nat) : powerMean p q z n = powerMean p q x n + powerMean p q y n := by
  rw [powerMean, powerMean, powerMean, ← add_div, weighted_add _ fun k => h (n + k)]
theorem backMean_add {w : Nat → R} (h : ∀ i, z i = x i + y i) (p n : Nat) : backMean w p z n = backMean w p x n + backMean w p y n := by
  rw [backMean, backMean, backMean, ← add_div, weighted_add _ fun k => h (n + (p - 1) - k)]
theorem hullEma_add {a b c : R} (h : ∀ i, z i = x i + y i) (n : Nat) : hullEma a b c z n = hullEma a b c x n + hullEma a b c y n :=
  ema_add (fun i => by rw [ema_add h, ema_add h]; ring) n

end Verif.Raise
