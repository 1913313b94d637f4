/- Series that come together geometrically. -/
import Verif.Proof.Memory
import Verif.Proof.Units
import Mathlib.Algebra.Order.BigOperators.Group.Finset
import Mathlib.Tactic.Positivity
import Mathlib.Algebra.Order.Archimedean.Basic
import Mathlib.Tactic.Linarith
import Mathlib.Tactic.Ring
import Mathlib.Tactic.FieldSimp

namespace Verif.Memory
open Spec Finset
open Spec (ema wilder)
variable {R : Type} [Field R] [LinearOrder R] [IsStrictOrderedRing R]

/-- From bar `a` of `f` and bar `b` of `g` on, the two come together at least as fast as the powers of `q`. -/
def Joins (q : R) (a b : Nat) (f g : Nat → R) : Prop := ∃ C, 0 ≤ C ∧ ∀ n, |f (a + n) - g (b + n)| ≤ C * q ^ n

variable {q : R} {a b : Nat} {f g f' g' : Nat → R}

theorem Joins.of_step (hq : 0 < q) (h : Joins q (a + 1) (b + 1) f g) : Joins q a b f g := by
  obtain ⟨C, hC, h⟩ := h
  refine ⟨C / q + |f a - g b|, by positivity, fun n => ?_⟩
  cases n with
  | zero =>
    have : 0 ≤ C / q := by positivity
    simp only [Nat.add_zero, pow_zero, mul_one]; linarith
  | succ n =>
    have h := h n
    rw [show a + 1 + n = a + (n + 1) by omega, show b + 1 + n = b + (n + 1) by omega] at h
    refine h.trans ?_
    have e : C / q * q ^ (n + 1) = C * q ^ n := by field_simp; ring
    have : 0 ≤ |f a - g b| * q ^ (n + 1) := by positivity
    rw [add_mul, e]; linarith
theorem Joins.of_steps (hq : 0 < q) (k : Nat) (h : Joins q (a + k) (b + k) f g) : Joins q a b f g := by
  induction k with
  | zero => exact h
  | succ k ih => exact ih (Joins.of_step hq h)
/-- Equal from some bar on. -/
theorem Joins.of_eq (hq : 0 < q) (k : Nat) (h : ∀ n, f (a + k + n) = g (b + k + n)) : Joins q a b f g :=
  Joins.of_steps hq k ⟨0, le_rfl, fun n => by rw [h n]; simp⟩
theorem Joins.add (h : Joins q a b f g) (h' : Joins q a b f' g') : Joins q a b (fun i => f i + f' i) (fun i => g i + g' i) := by
  obtain ⟨C, hC, h⟩ := h
  obtain ⟨D, hD, h'⟩ := h'
  refine ⟨C + D, by positivity, fun n => ?_⟩
  rw [add_sub_add_comm, add_mul]
  exact (abs_add_le _ _).trans (add_le_add (h n) (h' n))
theorem Joins.mul (c : R) (h : Joins q a b f g) : Joins q a b (fun i => c * f i) (fun i => c * g i) := by
  obtain ⟨C, hC, h⟩ := h
  refine ⟨|c| * C, by positivity, fun n => ?_⟩
  rw [← mul_sub, abs_mul, mul_assoc]
  exact mul_le_mul_of_nonneg_left (h n) (abs_nonneg _)
theorem Joins.sub (h : Joins q a b f g) (h' : Joins q a b f' g') : Joins q a b (fun i => f i - f' i) (fun i => g i - g' i) := by
  simpa only [neg_one_mul, sub_eq_add_neg] using h.add (h'.mul (-1))
theorem Joins.later (hq : 0 < q) (hq1 : q < 1) (k : Nat) (h : Joins q a b f g) : Joins q a b (fun i => f (i + k)) (fun i => g (i + k)) := by
  obtain ⟨C, hC, h⟩ := h
  refine ⟨C, hC, fun n => ?_⟩
  have := h (n + k)
  rw [← Nat.add_assoc, ← Nat.add_assoc] at this
  refine this.trans (mul_le_mul_of_nonneg_left ?_ hC)
  exact pow_le_pow_of_le_one hq.le hq1.le (by omega)
theorem Joins.sum (hq : 0 < q) {f g : Nat → Nat → R} (p : Nat) (h : ∀ k, k < p → Joins q a b (f k) (g k)) :
    Joins q a b (fun i => ∑ k ∈ range p, f k i) (fun i => ∑ k ∈ range p, g k i) := by
  induction p with
  | zero => exact Joins.of_eq hq 0 fun n => by simp
  | succ p ih =>
    simp only [sum_range_succ]
    exact (ih fun k hk => h k (by omega)).add (h p (by omega))
theorem Joins.window (hq : 0 < q) (hq1 : q < 1) (p : Nat) (h : Joins q a b f g) : Joins q a b (winMean p f) (winMean p g) := by
  have := (Joins.sum hq p fun k _ => h.later hq hq1 k).mul (1 / (p : R))
  have e : ∀ f : Nat → R, winMean p f = fun i => 1 / (p : R) * ∑ k ∈ range p, f (i + k) := fun f => funext fun i => by
    rw [winMean, winSum]; ring
  rwa [e, e]
/-- A recursion that keeps less than `q` of the last value. -/
theorem Joins.recursion {r k : R} {u v : Nat → R} (hq : 0 < q) (hrq : |r| < q) (hu : ∀ n, u (n + 1) = r * u n + k * f (n + 1))
    (hv : ∀ n, v (n + 1) = r * v n + k * g (n + 1)) (h : Joins q a b f g) : Joins q a b u v := by
  obtain ⟨C, hC, h⟩ := h
  have hd : 0 < q - |r| := sub_pos.2 hrq
  refine ⟨|u a - v b| + |k| * C * q / (q - |r|), by positivity, fun n => ?_⟩
  induction n with
  | zero =>
    have : 0 ≤ |k| * C * q / (q - |r|) := by positivity
    simp only [Nat.add_zero, pow_zero, mul_one]; linarith
  | succ n ih =>
    have e : u (a + (n + 1)) - v (b + (n + 1)) = r * (u (a + n) - v (b + n)) + k * (f (a + (n + 1)) - g (b + (n + 1))) := by
      rw [← Nat.add_assoc, ← Nat.add_assoc, hu, hv]; ring
    rw [e]
    have h1 := abs_add_le (r * (u (a + n) - v (b + n))) (k * (f (a + (n + 1)) - g (b + (n + 1))))
    rw [abs_mul, abs_mul] at h1
    have h2 := mul_le_mul_of_nonneg_left ih (abs_nonneg r)
    have h3 := mul_le_mul_of_nonneg_left (h (n + 1)) (abs_nonneg k)
    have h4 : |r| * (|k| * C * q / (q - |r|)) + |k| * C * q = q * (|k| * C * q / (q - |r|)) := by field_simp; ring
    have h5 : 0 ≤ (q - |r|) * (|u a - v b| * q ^ n) := by positivity
    have h6 : (|u a - v b| + |k| * C * q / (q - |r|)) * q ^ (n + 1) = q * (|u a - v b| * q ^ n) + (q * (|k| * C * q / (q - |r|))) * q ^ n := by ring
    have h7 : (|r| * (|k| * C * q / (q - |r|)) + |k| * C * q) * q ^ n = |r| * (|k| * C * q / (q - |r|)) * q ^ n + |k| * (C * q ^ (n + 1)) := by ring
    rw [h6, ← h4, h7]
    have h8 : |r| * ((|u a - v b| + |k| * C * q / (q - |r|)) * q ^ n) = |r| * (|u a - v b| * q ^ n) + |r| * (|k| * C * q / (q - |r|)) * q ^ n := by ring
    rw [h8] at h2
    linarith
theorem Joins.ema {k : R} (hq : 0 < q) (hk : |1 - k| < q) (h : Joins q a b f g) : Joins q a b (ema k f) (ema k g) :=
  Joins.recursion (r := 1 - k) (k := k) hq hk (fun n => by rw [Spec.ema]; ring) (fun n => by rw [Spec.ema]; ring) h
theorem Joins.wilder {p : Nat} (hq : 0 < q) (hq1 : q < 1) (hk : |1 - 1 / (p : R)| < q) (h : Joins q a b f g) :
    Joins q a b (wilder p f) (wilder p g) := by
  refine Joins.ema hq hk ?_
  refine Joins.of_step hq ?_
  have := h.later hq hq1 p
  obtain ⟨C, hC, h⟩ := this
  refine ⟨C, hC, fun n => ?_⟩
  beta_reduce
  rw [if_neg (by omega), if_neg (by omega), show a + 1 + n - 1 + p = a + n + p by omega, show b + 1 + n - 1 + p = b + n + p by omega]
  exact h n

/-- From the values to the calls. -/
theorem fadesRows {ρ ω : Type} (Q : ρ → Prop) (d : ρ) (hd : Q d) {batch : (Nat → R) → List ρ → M (Ret × List ω)} {o : Nat → R} {s : Nat} {val : (Nat → ρ) → Nat → ω} {part : ω → R}
    (hc : ∀ x : Nat → ρ, (∀ n, Q (x n)) → ∀ N, batch o (pre x N) = .ok (.okay, pre (val x) (N - s))) (q : R) (hq : 0 < q) (hq1 : q < 1)
    (h : ∀ (x y : Nat → ρ) (a b : Nat), (∀ n, x (a + n) = y (b + n)) → Joins q a b (fun i => part (val x i)) (fun i => part (val y i))) :
    Fades batch o part Q := by
  refine ⟨q, hq, hq1, fun xs ys z hx hy hz => ?_⟩
  have app : ∀ l : List ρ, (∀ r ∈ l, Q r) → ∃ x : Nat → ρ, (∀ n, Q (x n)) ∧ (∀ n, l ++ pre z (n + 1) = pre x (l.length + n + 1)) ∧ ∀ n, x (l.length + n) = z n := fun l hl => by
    refine ⟨fun i => if i < l.length then l.getD i d else z (i - l.length), fun n => ?_, fun n => ?_, fun n => by simp⟩
    · beta_reduce
      split <;> rename_i hn
      · rw [List.getD_eq_getElem?_getD, List.getElem?_eq_getElem hn]; exact hl _ (List.getElem_mem hn)
      · exact hz _
    refine List.ext_getElem (by simp [pre]; omega) fun i h1 h2 => ?_
    simp only [pre, List.getElem_append, List.getElem_map, List.getElem_range]
    split <;> rename_i hi
    · simp [List.getElem?_eq_getElem hi]
    · rfl
  obtain ⟨x, qx, e1, x1⟩ := app xs hx
  obtain ⟨y, qy, e2, y1⟩ := app ys hy
  obtain ⟨C, hC, h⟩ := h x y xs.length ys.length fun n => by rw [x1, y1]
  refine ⟨C / q ^ s + ∑ m ∈ range s, |part (val x (xs.length + m - s)) - part (val y (ys.length + m - s))| / q ^ m, fun n => ?_⟩
  refine ⟨_, _, (congrArg _ (e1 n)).trans (hc x qx _), (congrArg _ (e2 n)).trans (hc y qy _), fun u hu v hv => ?_⟩
  have last : ∀ (w : Nat → ω) (N : Nat) (t : ω), t ∈ (pre w N).getLast? → t = w (N - 1) := fun w N t ht => by
    cases N with
    | zero => simp [pre] at ht
    | succ N => simp [pre, List.range_succ] at ht; simp [ht]
  rw [last _ _ _ hu, last _ _ _ hv]
  have hs : 0 ≤ ∑ m ∈ range s, |part (val x (xs.length + m - s)) - part (val y (ys.length + m - s))| / q ^ m := sum_nonneg fun m _ => by positivity
  rcases Nat.lt_or_ge n s with hn | hn
  · have := single_le_sum (f := fun m => |part (val x (xs.length + m - s)) - part (val y (ys.length + m - s))| / q ^ m) (fun m _ => by positivity) (mem_range.2 hn)
    have h0 : 0 ≤ C / q ^ s := by positivity
    rw [show xs.length + n + 1 - s - 1 = xs.length + n - s by omega, show ys.length + n + 1 - s - 1 = ys.length + n - s by omega]
    have h2 := mul_le_mul_of_nonneg_right (this.trans (le_add_of_nonneg_left h0)) (pow_pos hq n).le
    rwa [div_mul_cancel₀ _ (pow_pos hq n).ne'] at h2
  · rw [show xs.length + n + 1 - s - 1 = xs.length + (n - s) by omega, show ys.length + n + 1 - s - 1 = ys.length + (n - s) by omega]
    refine (h (n - s)).trans ?_
    have e : C / q ^ s * q ^ n = C * q ^ (n - s) := by
      conv_lhs => rw [← Nat.sub_add_cancel hn, pow_add]
      field_simp
    rw [add_mul, e]
    have : 0 ≤ (∑ m ∈ range s, |part (val x (xs.length + m - s)) - part (val y (ys.length + m - s))| / q ^ m) * q ^ n := by positivity
    linarith

theorem fades {ρ ω : Type} [Inhabited ρ] {batch : (Nat → R) → List ρ → M (Ret × List ω)} {o : Nat → R} {s : Nat} {val : (Nat → ρ) → Nat → ω} {part : ω → R}
    (hc : Computes batch o s val) (q : R) (hq : 0 < q) (hq1 : q < 1)
    (h : ∀ (x y : Nat → ρ) (a b : Nat), (∀ n, x (a + n) = y (b + n)) → Joins q a b (fun i => part (val x i)) (fun i => part (val y i))) :
    Fades batch o part := fadesRows (fun _ => True) default trivial (fun x _ N => hc x N) q hq hq1 h

/-- A rate at which an average of weight `k` forgets. -/
def rate (k : R) : R := (1 + |1 - k|) / 2
theorem rate_pos (k : R) : 0 < rate k := by unfold rate; positivity
theorem rate_lt {k : R} (h0 : 0 < k) (h2 : k < 2) : rate k < 1 := by
  have : |1 - k| < 1 := abs_lt.2 ⟨by linarith, by linarith⟩
  unfold rate; linarith
theorem lt_rate {k : R} (h0 : 0 < k) (h2 : k < 2) : |1 - k| < rate k := by
  have : |1 - k| < 1 := abs_lt.2 ⟨by linarith, by linarith⟩
  unfold rate; linarith
theorem emaCoef_pos (p : Nat) : 0 < (emaCoef p : R) := by unfold emaCoef; positivity
theorem emaCoef_lt {p : Nat} (hp : 1 ≤ p) : (emaCoef p : R) < 2 := by
  have : (1 : R) ≤ p := by exact_mod_cast hp
  unfold emaCoef
  rw [div_lt_iff₀ (by positivity)]; linarith

/-- A difference that stays does not fade. -/
theorem not_fades [Archimedean R] {ρ ω : Type} {batch : (Nat → R) → List ρ → M (Ret × List ω)} {o : Nat → R} {part : ω → R} {Q : ρ → Prop} (xs ys : List ρ) (z : Nat → ρ)
    (hx : ∀ r ∈ xs, Q r) (hy : ∀ r ∈ ys, Q r) (hz : ∀ n, Q (z n)) (s : Nat) {d : R} (hd : 0 < d)
    (h : ∀ n, s ≤ n → ∃ (u v : List ω) (a b : ω), batch o (xs ++ pre z (n + 1)) = .ok (.okay, u) ∧ batch o (ys ++ pre z (n + 1)) = .ok (.okay, v) ∧
      u.getLast? = some a ∧ v.getLast? = some b ∧ d ≤ |part a - part b|) : ¬ Fades batch o part Q := fun hf => by
  obtain ⟨q, hq, hq1, hf⟩ := hf
  obtain ⟨C, hC⟩ := hf xs ys z hx hy hz
  have key : ∀ n, s ≤ n → d ≤ C * q ^ n := fun n hn => by
    obtain ⟨u, v, h1, h2, h3⟩ := hC n
    obtain ⟨u', v', a, b, h4, h5, h6, h7, h8⟩ := h n hn
    rw [h1] at h4; rw [h2] at h5
    simp only [Except.ok.injEq, Prod.mk.injEq, true_and] at h4 h5
    subst h4 h5
    exact h8.trans (h3 a h6 b h7)
  have hC0 : 0 < C := by
    have := key s le_rfl
    have hq' := pow_pos hq s
    by_contra hn
    have := mul_nonpos_of_nonpos_of_nonneg (not_lt.1 hn) hq'.le
    linarith
  obtain ⟨m, hm⟩ := exists_pow_lt_of_lt_one (div_pos hd hC0) hq1
  have h1 := key (s + m) (by omega)
  have h2 : q ^ (s + m) ≤ q ^ m := pow_le_pow_of_le_one hq.le hq1.le (by omega)
  have h3 : C * q ^ (s + m) ≤ C * q ^ m := mul_le_mul_of_nonneg_left h2 hC0.le
  have h4 : C * q ^ m < d := by rwa [lt_div_iff₀ hC0, mul_comm] at hm
  linarith

end Verif.Memory
