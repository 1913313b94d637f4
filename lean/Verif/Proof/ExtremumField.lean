/- Extremum tracking is correct over a total order (helper lemmas). -/
import Verif.Proof.Extremum
import Verif.Proof.WindowField
import Verif.Spec.Extremum

namespace Verif
open Spec Finset
set_option linter.unusedSectionVars false
set_option linter.unusedSimpArgs false

section Gen
variable {R : Type} [Num R]

/-- `k` is the last best position of `t..i` with respect to `le`. -/
def Best (le : R → R → Prop) (f : Nat → R) (t i : Nat) (s : Int × R) : Prop :=
  ∃ k : Nat, s = ((k : Int), f k) ∧ t ≤ k ∧ k ≤ i ∧ (∀ j, t ≤ j → j ≤ i → le (f j) (f k)) ∧
    ∀ j, k < j → j ≤ i → ¬ le (f k) (f j)

structure Rep (rep : R → R → Bool) (le : R → R → Prop) : Prop where
  rfl' : ∀ a, le a a
  trans : ∀ a b c, le a b → le b c → le a c
  total : ∀ a b, ¬ le a b → le b a
  iff : ∀ a b, rep a b = true ↔ le b a

theorem scanP_best {rep : R → R → Bool} {le : R → R → Prop} (C : Rep rep le) (f : Nat → R) (t : Nat) :
    ∀ n, Best le f t (t + n) (scanP rep f t n) := by
  intro n
  induction n with
  | zero =>
    refine ⟨t, rfl, le_rfl, by omega, fun j h1 h2 => ?_, fun j h1 h2 => by omega⟩
    obtain rfl : j = t := by omega
    exact C.rfl' _
  | succ n ih =>
    obtain ⟨k, hs, h1, h2, h3, h4⟩ := ih
    rw [scanP]
    split
    · rename_i hr
      rw [hs] at hr
      have hr := (C.iff _ _).1 hr
      refine ⟨t + n + 1, rfl, by omega, by omega, fun j hj1 hj2 => ?_, fun j hj1 hj2 => by omega⟩
      by_cases hj : j = t + n + 1
      · subst hj; exact C.rfl' _
      · exact C.trans _ _ _ (h3 j hj1 (by omega)) hr
    · rename_i hr
      rw [hs] at hr
      have hr' : ¬ le (f k) (f (t + n + 1)) := fun h => hr ((C.iff _ _).2 h)
      refine ⟨k, hs, h1, by omega, fun j hj1 hj2 => ?_, fun j hj1 hj2 => ?_⟩
      · by_cases hj : j = t + n + 1
        · subst hj; exact C.total _ _ hr'
        · exact h3 j hj1 (by omega)
      · by_cases hj : j = t + n + 1
        · subst hj; exact hr'
        · exact h4 j hj1 (by omega)

theorem trackP_best {rep : R → R → Bool} {le : R → R → Prop} (C : Rep rep le) (f : Nat → R) (t i t' : Nat) (ht : t' ≤ t)
    (hti : t ≤ i) (s : Int × R) (h : s.1 = -1 ∨ (1 ≤ i ∧ Best le f t' (i - 1) s)) :
    Best le f t i (trackP rep f t i s) := by
  unfold trackP
  split
  · have := scanP_best C f t (i - t)
    rwa [show t + (i - t) = i by omega] at this
  · rename_i hlt
    rcases h with h | ⟨hi, k, hs, h1, h2, h3, h4⟩
    · omega
    · rw [hs] at hlt ⊢
      simp only at hlt ⊢
      split
      · rename_i hr
        have hr := (C.iff _ _).1 hr
        refine ⟨i, rfl, hti, le_rfl, fun j hj1 hj2 => ?_, fun j hj1 hj2 => by omega⟩
        by_cases hj : j = i
        · subst hj; exact C.rfl' _
        · exact C.trans _ _ _ (h3 j (by omega) (by omega)) hr
      · rename_i hr
        have hr' : ¬ le (f k) (f i) := fun h => hr ((C.iff _ _).2 h)
        refine ⟨k, rfl, by omega, by omega, fun j hj1 hj2 => ?_, fun j hj1 hj2 => ?_⟩
        · by_cases hj : j = i
          · subst hj; exact C.total _ _ hr'
          · exact h3 j (by omega) (by omega)
        · by_cases hj : j = i
          · subst hj; exact hr'
          · exact h4 j (by omega) (by omega)

theorem trk_best {rep : R → R → Bool} {le : R → R → Prop} (C : Rep rep le) (f : Nat → R) (m0 : R) (w i0 : Nat) (k : Nat) :
    Best le f (i0 + k - w) (i0 + k) (trk rep f m0 w i0 (k + 1)) := by
  induction k with
  | zero => exact trackP_best C f _ _ 0 (by omega) (by omega) _ (Or.inl rfl)
  | succ k ih =>
    rw [trk]
    exact trackP_best C f _ _ (i0 + k - w) (by omega) (by omega) _ (Or.inr ⟨by omega, ih⟩)

end Gen

variable {R : Type} [Field R] [LinearOrder R] [IsStrictOrderedRing R] [CMath R]

theorem repMax_rep : Rep (repMax (R := R)) (· ≤ ·) :=
  ⟨le_refl, fun _ _ _ => le_trans, fun _ _ h => (not_le.1 h).le, fun a b => by simp [repMax]⟩
theorem repMin_rep : Rep (repMin (R := R)) (fun a b => b ≤ a) :=
  ⟨le_refl, fun _ _ _ h h' => le_trans h' h, fun _ _ h => (not_le.1 h).le, fun a b => by simp [repMin]⟩

theorem trk_lastMax (f : Nat → R) (m0 : R) (w i0 k : Nat) :
    ∃ a, LastMax f (i0 + k - w) (i0 + k) a ∧ trk repMax f m0 w i0 (k + 1) = ((a : Int), f a) := by
  obtain ⟨a, h, h1, h2, h3, h4⟩ := trk_best repMax_rep f m0 w i0 k
  exact ⟨a, ⟨h1, h2, h3, fun j a b => not_le.1 (h4 j a b)⟩, h⟩

theorem trk_lastMin (f : Nat → R) (m0 : R) (w i0 k : Nat) :
    ∃ a, LastMin f (i0 + k - w) (i0 + k) a ∧ trk repMin f m0 w i0 (k + 1) = ((a : Int), f a) := by
  obtain ⟨a, h, h1, h2, h3, h4⟩ := trk_best repMin_rep f m0 w i0 k
  exact ⟨a, ⟨h1, h2, h3, fun j a b => not_le.1 (h4 j a b)⟩, h⟩

theorem lastMax_winMax {f : Nat → R} {t i a p : Nat} (h : LastMax f t i a) (hp : 1 ≤ p) (hi : i + 1 = t + p) :
    f a = winMax p f t := by
  obtain ⟨h1, h2, h3, h4⟩ := h
  apply le_antisymm
  · have := le_sup' (s := range (p - 1 + 1)) (fun k => f (t + k)) (mem_range.2 (show a - t < p - 1 + 1 by omega))
    simpa [winMax, winMin, show t + (a - t) = a by omega] using this
  · apply sup'_le
    intro k hk
    have := mem_range.1 hk
    exact h3 _ (by omega) (by omega)

theorem lastMin_winMin {f : Nat → R} {t i a p : Nat} (h : LastMin f t i a) (hp : 1 ≤ p) (hi : i + 1 = t + p) :
    f a = winMin p f t := by
  obtain ⟨h1, h2, h3, h4⟩ := h
  apply le_antisymm
  · apply le_inf'
    intro k hk
    have := mem_range.1 hk
    exact h3 _ (by omega) (by omega)
  · have := inf'_le (s := range (p - 1 + 1)) (fun k => f (t + k)) (mem_range.2 (show a - t < p - 1 + 1 by omega))
    simpa [winMax, winMin, show t + (a - t) = a by omega] using this

theorem trk_max (f : Nat → R) (m0 : R) (p i0 k : Nat) (hp : 1 ≤ p) (hi : p - 1 ≤ i0 + k) :
    (trk repMax f m0 (p - 1) i0 (k + 1)).2 = winMax p f (i0 + k - (p - 1)) := by
  obtain ⟨a, h, e⟩ := trk_lastMax f m0 (p - 1) i0 k
  rw [e]; exact lastMax_winMax h hp (by omega)

theorem trk_min (f : Nat → R) (m0 : R) (p i0 k : Nat) (hp : 1 ≤ p) (hi : p - 1 ≤ i0 + k) :
    (trk repMin f m0 (p - 1) i0 (k + 1)).2 = winMin p f (i0 + k - (p - 1)) := by
  obtain ⟨a, h, e⟩ := trk_lastMin f m0 (p - 1) i0 k
  rw [e]; exact lastMin_winMin h hp (by omega)

theorem le_winMax (p : Nat) (f : Nat → R) (j k : Nat) (h1 : j ≤ k) (h2 : k < j + p) : f k ≤ winMax p f j := by
  have := le_sup' (s := range (p - 1 + 1)) (fun i => f (j + i)) (mem_range.2 (show k - j < p - 1 + 1 by omega))
  simpa [winMax, show j + (k - j) = k by omega] using this
theorem winMin_le (p : Nat) (f : Nat → R) (j k : Nat) (h1 : j ≤ k) (h2 : k < j + p) : winMin p f j ≤ f k := by
  have := inf'_le (s := range (p - 1 + 1)) (fun i => f (j + i)) (mem_range.2 (show k - j < p - 1 + 1 by omega))
  simpa [winMin, show j + (k - j) = k by omega] using this
theorem winMax_mem (p : Nat) (hp : 1 ≤ p) (f : Nat → R) (j : Nat) : ∃ k, j ≤ k ∧ k < j + p ∧ winMax p f j = f k := by
  obtain ⟨k, hk, e⟩ := exists_mem_eq_sup' (s := range (p - 1 + 1)) ⟨0, by simp⟩ (fun i => f (j + i))
  have := mem_range.1 hk
  exact ⟨j + k, by omega, by omega, e⟩
theorem winMin_mem (p : Nat) (hp : 1 ≤ p) (f : Nat → R) (j : Nat) : ∃ k, j ≤ k ∧ k < j + p ∧ winMin p f j = f k := by
  obtain ⟨k, hk, e⟩ := exists_mem_eq_inf' (s := range (p - 1 + 1)) ⟨0, by simp⟩ (fun i => f (j + i))
  have := mem_range.1 hk
  exact ⟨j + k, by omega, by omega, e⟩

theorem refScan_max (f : Nat → R) (t n : Nat) :
    refScan (fun m v => if v < m then m else v) f t n = winMax (n + 1) f t := by
  induction n with
  | zero => simp [refScan, winMax]
  | succ n ih =>
    rw [refScan, ih]
    have e : winMax (n + 1 + 1) f t = max (winMax (n + 1) f t) (f (t + n + 1)) := by
      apply le_antisymm
      · obtain ⟨k, h1, h2, e⟩ := winMax_mem (n + 1 + 1) (by omega) f t
        rw [e]
        by_cases hk : k = t + n + 1
        · subst hk; exact le_max_right _ _
        · exact (le_winMax (n + 1) f t k h1 (by omega)).trans (le_max_left _ _)
      · apply max_le
        · obtain ⟨k, h1, h2, e⟩ := winMax_mem (n + 1) (by omega) f t
          rw [e]; exact le_winMax _ _ _ _ h1 (by omega)
        · exact le_winMax _ _ _ _ (by omega) (by omega)
    rw [e]
    split
    · rename_i h; exact (max_eq_left h.le).symm
    · rename_i h; exact (max_eq_right (not_lt.1 h)).symm

theorem refScan_min (f : Nat → R) (t n : Nat) :
    refScan (fun m v => if m < v then m else v) f t n = winMin (n + 1) f t := by
  induction n with
  | zero => simp [refScan, winMin]
  | succ n ih =>
    rw [refScan, ih]
    have e : winMin (n + 1 + 1) f t = min (winMin (n + 1) f t) (f (t + n + 1)) := by
      apply le_antisymm
      · apply le_min
        · obtain ⟨k, h1, h2, e⟩ := winMin_mem (n + 1) (by omega) f t
          rw [e]; exact winMin_le _ _ _ _ h1 (by omega)
        · exact winMin_le _ _ _ _ (by omega) (by omega)
      · obtain ⟨k, h1, h2, e⟩ := winMin_mem (n + 1 + 1) (by omega) f t
        rw [e]
        by_cases hk : k = t + n + 1
        · subst hk; exact min_le_right _ _
        · exact (min_le_left _ _).trans (winMin_le (n + 1) f t k h1 (by omega))
    rw [e]
    split
    · rename_i h; exact (min_eq_left h.le).symm
    · rename_i h; exact (min_eq_right (not_lt.1 h)).symm

theorem bsum_win (h : Nat → R) (m j : Nat) : TiBuf.bsum h m (j + m) = winSum m h j := by
  rw [TiBuf.bsum_eq, show j + m - m = j by omega, winSum, sum_Ico_eq_sum_range, show j + m - j = m by omega]

end Verif
