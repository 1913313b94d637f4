/-
C87: missing prices in the window of max and min, and two more averages.
-/
import Verif.Props.Missing

namespace Verif
set_option linter.unusedVariables false
namespace Missing
section
variable {R : Type} [Num R] [HasNan R]
open HasNan

/-- What the tracking knows after bar `i`, the window starting at `t`; `le b a` is the comparison that lets `a` replace `b`. -/
def Tracks (rep : R → R → Bool) (f : Nat → R) (t i : Nat) (s : Int × R) : Prop :=
  ∃ k : Nat, s = ((k : Int), f k) ∧ t ≤ k ∧ k ≤ i ∧ (f k ≠ nan → ∀ j, t ≤ j → j ≤ i → f j ≠ nan → rep (f k) (f j) = true)

variable {rep : R → R → Bool} {f : Nat → R} (hn : ∀ a b, rep a b = true → a ≠ nan ∧ b ≠ nan) (ht : ∀ a b c, rep a b = true → rep b c = true → rep a c = true)
  (hr : ∀ a b, a ≠ nan → b ≠ nan → rep a b = false → rep b a = true) (hf : ∀ a, a ≠ nan → rep a a = true)
include hn ht hr hf

theorem tracks_bar {t i : Nat} {s : Int × R} (h : Tracks rep f t i s) (hti : t ≤ i) :
    Tracks rep f t (i + 1) (if rep (f (i + 1)) s.2 then (((i + 1 : Nat) : Int), f (i + 1)) else s) := by
  obtain ⟨k, rfl, h1, h2, h3⟩ := h
  dsimp only
  split
  · rename_i e
    refine ⟨i + 1, rfl, by omega, le_rfl, fun _ j a b c => ?_⟩
    rcases Nat.eq_or_lt_of_le b with rfl | b
    · exact hf _ c
    · exact ht _ _ _ e (h3 (hn _ _ e).2 j a (by omega) c)
  · rename_i e
    refine ⟨k, rfl, h1, by omega, fun z j a b c => ?_⟩
    rcases Nat.eq_or_lt_of_le b with rfl | b
    · exact hr _ _ c z (by simpa using e)
    · exact h3 z j a (by omega) c

theorem tracks_scan (t n : Nat) : Tracks rep f t (t + n) (scanP rep f t n) := by
  induction n with
  | zero => exact ⟨t, rfl, le_rfl, le_rfl, fun z j a b c => by obtain rfl : j = t := by omega
                                                               exact hf _ c⟩
  | succ n ih => exact tracks_bar hn ht hr hf ih (Nat.le_add_right t n)

theorem tracks_trk (m0 : R) (w k : Nat) : Tracks rep f k (w + k) (trk rep f m0 w w (k + 1)) := by
  induction k with
  | zero =>
    have := tracks_scan (f := f) hn ht hr hf 0 w
    rw [Nat.zero_add] at this
    simpa [trk, trackP] using this
  | succ k ih =>
    rw [trk, trackP, show w + (k + 1) - w = k + 1 by omega, show w + (k + 1) - (k + 1) = w by omega]
    split
    · have := tracks_scan (f := f) hn ht hr hf (k + 1) w
      rwa [show k + 1 + w = w + (k + 1) by omega] at this
    · rename_i e
      obtain ⟨l, hl, h1, h2, h3⟩ := ih
      rw [hl] at e ⊢
      simp only [Nat.cast_lt, not_lt] at e
      exact tracks_bar (i := w + k) hn ht hr hf ⟨l, rfl, e, h2, fun z j a b c => h3 z j (by omega) b c⟩ (by omega)

end

theorem f64_le_ne [Libm] {a b : F64} (h : a ≤ b) : a ≠ .nan ∧ b ≠ .nan :=
  ⟨fun e => HasNan.not_nan_le b (by rw [e] at h; exact h), fun e => HasNan.not_le_nan a (by rw [e] at h; exact h)⟩
theorem f64_le_total [Libm] {a b : F64} (ha : a ≠ .nan) (hb : b ≠ .nan) : a ≤ b ∨ b ≤ a := by
  show F64.le a b = true ∨ F64.le b a = true
  cases a with
  | nan => exact absurd rfl ha
  | inf s => cases b with
    | nan => exact absurd rfl hb
    | inf t => cases s <;> cases t <;> simp [F64.le]
    | fin t n h => cases s <;> simp [F64.le]
  | fin s m h => cases b with
    | nan => exact absurd rfl hb
    | inf t => cases t <;> simp [F64.le]
    | fin t n h => simp only [F64.le, decide_eq_true_eq]; exact le_total _ _
theorem f64_le_trans [Libm] {a b c : F64} (h1 : a ≤ b) (h2 : b ≤ c) : a ≤ c := by
  change F64.le a b = true at h1; change F64.le b c = true at h2; show F64.le a c = true
  cases a <;> cases b <;> cases c <;> simp only [F64.le, decide_eq_true_eq, Bool.or_eq_true, Bool.not_eq_true', Bool.false_eq_true] at * <;>
    first | exact h1 | exact h2 | exact le_trans h1 h2 | (simp_all; done) | (rcases h1 with h | h <;> simp_all)
theorem f64_le_refl [Libm] {a : F64} (h : a ≠ .nan) : a ≤ a := by
  rcases f64_le_total h h with h | h <;> exact h
end Missing

variable [Libm]
/-- max: once the missing prices have left the window the output is again the greatest price of the window, whatever happened before.
Partial: while the window has one, it is hidden (`max_missing_violates`). -/
theorem max_recovers_partial (o : Nat → F64) (p : Nat) (hc : toInt (o 0) = .ok (p : Int)) (hp : 1 ≤ p) (x : Nat → F64) (n : Nat) :
    ∃ y, maxBatch o (pre x n) = .ok (.okay, pre y (n - (p - 1))) ∧ ∀ j, (∀ k, j ≤ k → k ≤ j + (p - 1) → x k ≠ .nan) →
      (∃ k, j ≤ k ∧ k ≤ j + (p - 1) ∧ y j = x k) ∧ ∀ k, j ≤ k → k ≤ j + (p - 1) → x k ≤ y j := by
  refine ⟨_, max_run o p hc hp x n, fun j hj => ?_⟩
  obtain ⟨k, e, h1, h2, h3⟩ := Missing.tracks_trk (rep := repMax) (f := x) (fun a b h => by
      simp only [repMax, decide_eq_true_eq] at h; exact (Missing.f64_le_ne h).symm)
    (fun a b c h g => by simp only [repMax, decide_eq_true_eq] at *; exact Missing.f64_le_trans g h)
    (fun a b ha hb h => by simp only [repMax, decide_eq_true_eq, decide_eq_false_iff_not] at *; exact (Missing.f64_le_total hb ha).resolve_left h)
    (fun a h => by simp only [repMax, decide_eq_true_eq]; exact Missing.f64_le_refl h) (x 0) (p - 1) j
  dsimp only
  rw [e]
  refine ⟨⟨k, h1, by omega, rfl⟩, fun l a b => ?_⟩
  have := h3 (hj k h1 (by omega)) l a (by omega) (hj l a b)
  simpa [repMax] using this
theorem min_recovers_partial (o : Nat → F64) (p : Nat) (hc : toInt (o 0) = .ok (p : Int)) (hp : 1 ≤ p) (x : Nat → F64) (n : Nat) :
    ∃ y, minBatch o (pre x n) = .ok (.okay, pre y (n - (p - 1))) ∧ ∀ j, (∀ k, j ≤ k → k ≤ j + (p - 1) → x k ≠ .nan) →
      (∃ k, j ≤ k ∧ k ≤ j + (p - 1) ∧ y j = x k) ∧ ∀ k, j ≤ k → k ≤ j + (p - 1) → y j ≤ x k := by
  refine ⟨_, min_run o p hc hp x n, fun j hj => ?_⟩
  obtain ⟨k, e, h1, h2, h3⟩ := Missing.tracks_trk (rep := repMin) (f := x) (fun a b h => by
      simp only [repMin, decide_eq_true_eq] at h; exact (Missing.f64_le_ne h))
    (fun a b c h g => by simp only [repMin, decide_eq_true_eq] at *; exact Missing.f64_le_trans h g)
    (fun a b ha hb h => by simp only [repMin, decide_eq_true_eq, decide_eq_false_iff_not] at *; exact (Missing.f64_le_total ha hb).resolve_left h)
    (fun a h => by simp only [repMin, decide_eq_true_eq]; exact Missing.f64_le_refl h) (x 0) (p - 1) j
  dsimp only
  rw [e]
  refine ⟨⟨k, h1, by omega, rfl⟩, fun l a b => ?_⟩
  have := h3 (hj k h1 (by omega)) l a (by omega) (hj l a b)
  simpa [repMin] using this

/-- lma and dwma carry sums along too. -/
theorem lma_missing (o : Nat → F64) (p : Nat) (hc : toInt (o 0) = .ok (p : Int)) (hp : 1 ≤ p) (hs : lmaStart o = .ok ((p - 1 : Nat) : Int)) :
    Poisons lmaBatch o (p - 1) (· = .nan) (· = .nan) :=
  Missing.poisons_of (lma_run o p hc hp hs) fun x i j h hj => Missing.lma_lost _ _ h hj
theorem dwma_missing (o : Nat → F64) (p : Nat) (hc : toInt (o 0) = .ok (p : Int)) (hp : 1 ≤ p) (hb : p ≤ 1073741824)
    (hs : dwmaStart o = .ok ((2 * (p - 1) : Nat) : Int)) : Poisons dwmaBatch o (2 * (p - 1)) (· = .nan) (· = .nan) :=
  Missing.poisons_of (dwma_run o p hc hp hb hs) fun x i j h hj => Missing.dwma_lost _ h hj

/- A series with missing prices at the bars 0 and 3; the window of the bars 4 to 6 has none. -/
example : ((maxBatch (opt1 3) [.nan, c! 2, c! 1, .nan, c! 5, c! 4, c! 7]).toOption.map fun r => r.2.getLast?) = some (some (c! 7)) := by kernel_decide
example : toInt (opt1 3 0) = .ok ((3 : Nat) : Int) ∧ lmaStart (opt1 3) = .ok ((3 - 1 : Nat) : Int) ∧ dwmaStart (opt1 3) = .ok ((2 * (3 - 1) : Nat) : Int) := by
  kernel_decide

end Verif
