/- The recursive filters over a field (helper lemmas). -/
import Verif.Proof.Filters
import Verif.Proof.EmaField
import Mathlib.Tactic.LinearCombination
import Mathlib.Tactic.FieldSimp

namespace Verif
open Spec
set_option linter.unusedSectionVars false
set_option linter.unusedSimpArgs false
set_option linter.unusedVariables false

section Field
variable {R : Type} [Field R]

theorem dot_nil (v : List R) : dot [] v = 0 := by simp [dot]
theorem dot_nil_right (c : List R) : dot c [] = 0 := by cases c <;> simp [dot]
theorem dot_cons (a : R) (c : List R) (b : R) (v : List R) : dot (a :: c) (b :: v) = a * b + dot c v := by simp [dot]
theorem dot_cons_getD (a : R) (c v : List R) : dot (a :: c) v = a * v.getD 0 0 + dot c v.tail := by
  cases v with
  | nil => simp [dot]
  | cons b v => rw [dot_cons]; simp

theorem getD_tail (v : List R) (k : Nat) (d : R) : v.tail.getD k d = v.getD (k + 1) d := by
  cases v <;> simp

theorem dot1 (a : R) (v : List R) : dot [a] v = a * v.getD 0 0 := by rw [dot_cons_getD, dot_nil, add_zero]
theorem dot2 (a b : R) (v : List R) : dot [a, b] v = a * v.getD 0 0 + b * v.getD 1 0 := by
  rw [dot_cons_getD, dot1, getD_tail]
theorem dot3 (a b c : R) (v : List R) : dot [a, b, c] v = a * v.getD 0 0 + (b * v.getD 1 0 + c * v.getD 2 0) := by
  rw [dot_cons_getD, dot2, getD_tail, getD_tail]
theorem dot4 (a b c d : R) (v : List R) :
    dot [a, b, c, d] v = a * v.getD 0 0 + (b * v.getD 1 0 + (c * v.getD 2 0 + d * v.getD 3 0)) := by
  rw [dot_cons_getD, dot3, getD_tail, getD_tail, getD_tail]

theorem iirPast_eq (b a : List R) (F : R → List R → List R → R)
    (h : ∀ v xs ys, F v xs ys = dot b (v :: xs) + dot a ys) (x : Nat → R) (n : Nat) : yPast F x n = iirPast b a x n := by
  induction n with
  | zero => rfl
  | succ n ih => simp only [yPast, iirPast, h, ih, past]

theorem iir_eq (b a : List R) (F : R → List R → List R → R)
    (h : ∀ v xs ys, F v xs ys = dot b (v :: xs) + dot a ys) : yVal F = iir b a := by
  funext x n
  unfold yVal iir
  rw [h, iirPast_eq b a F h]; rfl

/-! Superposition. -/

theorem dot_lin (c u v : List R) (s t : R) (h : u.length = v.length) :
    dot c (List.zipWith (fun p q => s * p + t * q) u v) = s * dot c u + t * dot c v := by
  induction c generalizing u v with
  | nil => simp [dot]
  | cons a c ih =>
    cases u with
    | nil => cases v with
      | nil => simp [dot]
      | cons _ _ => simp at h
    | cons p u => cases v with
      | nil => simp at h
      | cons q v =>
        rw [List.zipWith_cons_cons, dot_cons, dot_cons, dot_cons, ih u v (by simpa using h)]; ring

theorem past_length (x : Nat → R) (n : Nat) : (past x n).length = n := by
  induction n with
  | zero => rfl
  | succ n ih => simp [past, ih]
theorem iirPast_length (b a : List R) (x : Nat → R) (n : Nat) : (iirPast b a x n).length = n := by
  induction n with
  | zero => rfl
  | succ n ih => simp [iirPast, ih]

theorem past_lin (s t : R) (x y : Nat → R) (n : Nat) :
    past (fun i => s * x i + t * y i) n = List.zipWith (fun p q => s * p + t * q) (past x n) (past y n) := by
  induction n with
  | zero => rfl
  | succ n ih => simp [past, ih]

theorem iirPast_lin (b a : List R) (s t : R) (x y : Nat → R) (n : Nat) :
    iirPast b a (fun i => s * x i + t * y i) n =
      List.zipWith (fun p q => s * p + t * q) (iirPast b a x n) (iirPast b a y n) := by
  induction n with
  | zero => rfl
  | succ n ih =>
    simp only [iirPast, List.zipWith_cons_cons, ih]
    rw [past_lin, dot_lin _ _ _ _ _ (by simp [past_length]), dot_lin _ _ _ _ _ (by simp [iirPast_length])]
    congr 1; ring

theorem iir_superposes (b a : List R) : Superposes (iir b a) := by
  intro s t x y n
  unfold iir
  rw [iirPast_lin, past_lin, dot_lin _ _ _ _ _ (by simp [past_length]), dot_lin _ _ _ _ _ (by simp [iirPast_length])]
  ring

theorem superposes_comp {F G : (Nat → R) → Nat → R} (hF : Superposes F) (hG : Superposes G) :
    Superposes (fun x => F (G x)) := by
  intro s t x y n
  have : G (fun i => s * x i + t * y i) = fun i => s * G x i + t * G y i := funext fun i => hG s t x y i
  show F (G _) n = _
  rw [this, hF]

/-! Delay. -/

theorem dot_zeros (c v : List R) (d : Nat) : dot c (v ++ List.replicate d 0) = dot c v := by
  induction c generalizing v with
  | nil => simp [dot]
  | cons a c ih =>
    cases v with
    | cons q v => rw [List.cons_append, dot_cons, dot_cons, ih]
    | nil =>
      rw [dot_nil_right, List.nil_append]
      clear ih
      induction d generalizing a c with
      | zero => simp [dot]
      | succ d ih =>
        rw [List.replicate_succ, dot_cons, mul_zero, zero_add]
        cases c with
        | nil => simp [dot]
        | cons b c => exact ih b c

theorem past_zero (x : Nat → R) (n : Nat) (h : ∀ i, i < n → x i = 0) : past x n = List.replicate n 0 := by
  induction n with
  | zero => rfl
  | succ n ih => rw [past, h n (by omega), ih fun i hi => h i (by omega)]; rfl

theorem past_delay (d : Nat) (x : Nat → R) (n : Nat) : past (delay d x) (n + d) = past x n ++ List.replicate d 0 := by
  induction n with
  | zero => rw [Nat.zero_add, past_zero _ _ (fun i hi => by simp [delay, hi])]; rfl
  | succ n ih =>
    rw [show n + 1 + d = (n + d) + 1 by omega, past, ih, past]
    simp [delay]

theorem iirPast_zero (b a : List R) (x : Nat → R) (n : Nat) (h : ∀ i, i < n → x i = 0) :
    iirPast b a x n = List.replicate n 0 := by
  induction n with
  | zero => rfl
  | succ n ih =>
    rw [iirPast, ih fun i hi => h i (by omega), past_zero x (n + 1) h]
    have e1 := dot_zeros b [] (n + 1)
    have e2 := dot_zeros a [] n
    rw [List.nil_append, dot_nil_right] at e1 e2
    rw [e1, e2]; simp [List.replicate_succ]

theorem iirPast_delay (b a : List R) (d : Nat) (x : Nat → R) (n : Nat) :
    iirPast b a (delay d x) (n + d) = iirPast b a x n ++ List.replicate d 0 := by
  induction n with
  | zero => rw [Nat.zero_add, iirPast_zero _ _ _ _ (fun i hi => by simp [delay, hi])]; rfl
  | succ n ih =>
    have e := past_delay d x (n + 1)
    rw [show n + 1 + d = (n + d) + 1 by omega] at e ⊢
    rw [iirPast, ih, e, dot_zeros, dot_zeros]
    rfl

theorem iir_delay (b a : List R) : TimeInvariant (iir b a) := by
  intro d x n
  unfold delay
  by_cases h : n < d
  · rw [if_pos h]
    have := iirPast_zero b a (delay d x) (n + 1) (fun i hi => by simp [delay, show i < d by omega])
    rw [iirPast, List.replicate_succ] at this
    exact (List.cons.inj this).1
  · rw [if_neg h]
    obtain ⟨m, rfl⟩ : ∃ m, n = m + d := ⟨n - d, by omega⟩
    rw [Nat.add_sub_cancel]
    show dot b (past (delay d x) (m + d + 1)) + dot a (iirPast b a (delay d x) (m + d)) = _
    rw [show m + d + 1 = m + 1 + d by omega, past_delay, iirPast_delay, dot_zeros, dot_zeros]; rfl

theorem timeInvariant_comp {F G : (Nat → R) → Nat → R} (hF : TimeInvariant F) (hG : TimeInvariant G) :
    TimeInvariant (fun x => F (G x)) := by
  intro d x n
  have : G (delay d x) = delay d (G x) := funext fun i => hG d x i
  show F (G _) n = _
  rw [this, hF]

/-! Constants. -/

theorem dot_const (c v : List R) (k : R) (h : ∀ i, i < c.length → v[i]? = some k) : dot c v = c.sum * k := by
  induction c generalizing v with
  | nil => simp [dot]
  | cons a c ih =>
    cases v with
    | nil => have := h 0 (by simp); simp at this
    | cons q v =>
      have h0 := h 0 (by simp)
      simp only [List.getElem?_cons_zero, Option.some.injEq] at h0
      rw [dot_cons, h0, ih v fun i hi => by simpa using h (i + 1) (by simpa using hi)]
      simp [add_mul]

theorem past_getElem? (y : Nat → R) (n k : Nat) (h : k < n) : (past y n)[k]? = some (y (n - (k + 1))) := by
  induction n generalizing k with
  | zero => omega
  | succ n ih =>
    cases k with
    | zero => simp [past]
    | succ k => rw [past, List.getElem?_cons_succ, ih k (by omega)]; congr 2; omega

theorem iirPast_past (b a : List R) (x : Nat → R) (n : Nat) : iirPast b a x n = past (iir b a x) n := by
  induction n with
  | zero => rfl
  | succ n ih => show iir b a x n :: iirPast b a x n = iir b a x n :: past (iir b a x) n; rw [ih]

theorem iir_settles (b a : List R) (hg : b.sum + a.sum = 1) (k : Nat) (hb : b.length ≤ k + 1) (ha : a.length ≤ k) :
    Settles k (iir b a) := by
  intro x c m hx hy i
  induction i using Nat.strong_induction_on with
  | _ i ih =>
    intro hi
    by_cases h : i < m + k
    · exact hy i hi h
    · unfold iir
      rw [iirPast_past, dot_const b _ c, dot_const a _ c]
      · rw [← add_mul, hg, one_mul]
      · intro j hj
        rw [past_getElem? _ _ _ (by omega), ih _ (by omega) (by omega)]
      · intro j hj
        rw [past_getElem? _ _ _ (by omega), hx _ (by omega)]

end Field

section Ordered
variable {R : Type} [Field R] [LinearOrder R] [IsStrictOrderedRing R] [CMath R]

theorem coef_cast (l : List Int) (q : Nat) : (coef l q : R) = ((l.getD (q - 1) 0 : Int) : R) / 1000000 := by
  simp [coef]

theorem million : (1000000 : R) ≠ 0 := by norm_num

/-- Facts about the twenty rows of a table. -/
theorem rows {P : Nat → Prop} [DecidablePred P] (h : ∀ i : Fin 20, P i) (q : Nat) (h1 : 1 ≤ q) (h2 : q ≤ 20) : P (q - 1) :=
  h ⟨q - 1, by omega⟩

theorem gf1_sum (q : Nat) (h1 : 1 ≤ q) (h2 : q ≤ 20) : (coef gf1B0 q : R) + coef gf1A1 q = 1 := by
  have := rows (P := fun i => gf1B0.getD i 0 + gf1A1.getD i 0 = 1000000) (by decide) q h1 h2
  rw [coef_cast, coef_cast, ← add_div, ← Int.cast_add, this]
  norm_num

theorem coef_pos (l : List Int) (h : ∀ i : Fin 20, 0 < l.getD i 0) (q : Nat) (h1 : 1 ≤ q) (h2 : q ≤ 20) : (0 : R) < coef l q := by
  rw [coef_cast]
  have := rows (P := fun i => 0 < l.getD i 0) h q h1 h2
  exact div_pos (by exact_mod_cast this) (by norm_num)

theorem gf2_sum (q : Nat) (h1 : 1 ≤ q) (h2 : q ≤ 20) : (coef gf2B0 q : R) + coef gf2A1 q + coef gf2A2 q ≠ 0 := by
  have := rows (P := fun i => 0 < gf2B0.getD i 0 + gf2A1.getD i 0 + gf2A2.getD i 0) (by decide) q h1 h2
  rw [coef_cast, coef_cast, coef_cast, ← add_div, ← add_div, ← Int.cast_add, ← Int.cast_add]
  exact (div_pos (by exact_mod_cast this) (by norm_num)).ne'

theorem gf4_sum (q : Nat) (h1 : 1 ≤ q) (h2 : q ≤ 20) :
    (coef gf4B0 q : R) + coef gf4A1 q + coef gf4A2 q + coef gf4A3 q + coef gf4A4 q ≠ 0 := by
  have := rows (P := fun i => 0 < gf4B0.getD i 0 + gf4A1.getD i 0 + gf4A2.getD i 0 + gf4A3.getD i 0 + gf4A4.getD i 0)
    (by decide) q h1 h2
  simp only [coef_cast, ← add_div, ← Int.cast_add]
  exact (div_pos (by exact_mod_cast this) (by norm_num)).ne'

theorem gf3Y_eq (q : Nat) (h1 : 1 ≤ q) (h2 : q ≤ 20) :
    yVal (gf3F (coef gf3B0 q : R)) = iir [1/4] [1/4, 1/4, 1/4] := by
  apply iir_eq
  intro v xs ys
  have h := (coef_pos (R := R) gf3B0 (by decide) q h1 h2).ne'
  rw [dot1, dot3]
  simp only [gf3F, Int.cast_zero, Int.cast_one, List.getD_cons_zero]
  field_simp
  ring

theorem gf1F_eq (q : Nat) (h1 : 1 ≤ q) (h2 : q ≤ 20) :
    yVal (gf1F (coef gf1B0 q : R) (coef gf1A1 q)) = iir [coef gf1B0 q] [coef gf1A1 q] := by
  apply iir_eq
  intro v xs ys
  rw [dot1, dot1]
  simp only [gf1F, Int.cast_zero, Int.cast_one, List.getD_cons_zero, gf1_sum q h1 h2, div_one]

theorem gf1G_eq (q : Nat) (h1 : 1 ≤ q) (h2 : q ≤ 20) :
    yVal (gf1G (coef gf1B0 q : R) (coef gf1A1 q)) = iir [coef gf1B0 q] [coef gf1A1 q] := by
  apply iir_eq
  intro v xs ys
  rw [dot1, dot1]
  simp only [gf1G, Int.cast_zero, Int.cast_one, List.getD_cons_zero, gf1_sum q h1 h2, div_one, mul_one]

theorem gf2Y_eq (q : Nat) : yVal (gf2F (coef gf2B0 q : R) (coef gf2A1 q) (coef gf2A2 q)) =
    iir [coef gf2B0 q / (coef gf2B0 q + coef gf2A1 q + coef gf2A2 q)]
      [coef gf2A1 q / (coef gf2B0 q + coef gf2A1 q + coef gf2A2 q), coef gf2A2 q / (coef gf2B0 q + coef gf2A1 q + coef gf2A2 q)] := by
  apply iir_eq
  intro v xs ys
  rw [dot1, dot2]
  simp only [gf2F, Int.cast_zero, Int.cast_one, List.getD_cons_zero]
  ring

theorem bf2Y_eq (q : Nat) : (bf2Y q : (Nat → R) → Nat → R) =
    iir [coef bf2B0 q, coef bf2B1 q, coef bf2B2 q] [coef bf2A1 q, coef bf2A2 q] := by
  apply iir_eq
  intro v xs ys
  rw [dot3, dot2]
  simp only [bf2F, Int.cast_zero, Int.cast_one, List.getD_cons_zero, List.getD_cons_succ]
  ring

theorem bf3Y_eq (q : Nat) : (bf3Y q : (Nat → R) → Nat → R) =
    iir [coef bf3B0 q, coef bf3B1 q, coef bf3B2 q, coef bf3B3 q] [coef bf3A1 q, coef bf3A2 q, coef bf3A3 q] := by
  apply iir_eq
  intro v xs ys
  rw [dot4, dot3]
  simp only [bf3F, Int.cast_zero, Int.cast_one, List.getD_cons_zero, List.getD_cons_succ]
  ring

theorem ssY_eq : yVal (ssF (R := R)) = iir [ssC1 / 2, ssC1 / 2] [ssC2, ssC3] := by
  apply iir_eq
  intro v xs ys
  rw [dot2, dot2]
  simp only [ssF, Int.cast_zero, Int.cast_ofNat, List.getD_cons_zero, List.getD_cons_succ]
  ring

theorem roofY_eq : yVal (roofF (R := R)) =
    iir [(1 - roofAlpha / 2) ^ 2, -2 * (1 - roofAlpha / 2) ^ 2, (1 - roofAlpha / 2) ^ 2]
      [2 * (1 - roofAlpha), -(1 - roofAlpha) ^ 2] := by
  apply iir_eq
  intro v xs ys
  rw [dot3, dot2]
  simp only [roofF, Int.cast_zero, Int.cast_one, Int.cast_ofNat, List.getD_cons_zero, List.getD_cons_succ]
  ring

theorem lf0_eq (g : R) : lfL0 g = iir [1 - g] [g] := by
  apply iir_eq
  intro v xs ys
  rw [dot1, dot1]
  simp only [lf0F, Int.cast_zero, Int.cast_one, List.getD_cons_zero]
theorem lfF_eq (g : R) : yVal (lfF g) = iir [-g, 1] [g] := by
  apply iir_eq
  intro v xs ys
  rw [dot2, dot1]
  simp only [lfF, Int.cast_zero, List.getD_cons_zero, List.getD_cons_succ]
  ring

theorem rema0 (o : Nat → R) (x : Nat → R) : remaY o x 0 = x 0 := rfl
theorem rema1 (o : Nat → R) (x : Nat → R) : remaY o x 1 = x 0 + 2 / (1 + o 0) * (x 1 - x 0) := by
  show (x 1 - x 0) * (((2 : Int) : R) / (((1 : Int) : R) + o 0)) + x 0 = _
  push_cast; ring
theorem rema2 (o : Nat → R) (x : Nat → R) (n : Nat) : remaY o x (n + 2) =
    (remaY o x (n + 1) * (1 + 2 * o 1) + 2 / (1 + o 0) * (x (n + 2) - remaY o x (n + 1)) - o 1 * remaY o x n) / (1 + o 1) := by
  show (remaY o x (n + 1) * (((1 : Int) : R) + ((2 : Int) : R) * o 1) + ((2 : Int) : R) / (((1 : Int) : R) + o 0) * (x (n + 2) - remaY o x (n + 1)) - o 1 * remaY o x n) / (((1 : Int) : R) + o 1) = _
  push_cast; ring

theorem lfY_eq (g : R) (x : Nat → R) (n : Nat) : lfY g x n =
    (iir [1 - g] [g] x n + 2 * iir [-g, 1] [g] (iir [1 - g] [g] x) n + 2 * iir [-g, 1] [g] (iir [-g, 1] [g] (iir [1 - g] [g] x)) n +
      iir [-g, 1] [g] (iir [-g, 1] [g] (iir [-g, 1] [g] (iir [1 - g] [g] x))) n) / 6 := by
  unfold lfY lfL3 lfL2 lfL1
  rw [lfF_eq, lf0_eq]
  push_cast
  rfl

theorem gf4Y_copy (q : Nat) (x : Nat → R) (n : Nat) (h : n < 5) : gf4Y q x n = x n :=
  if_pos (by rw [yPast_length]; omega)

theorem gf4Y_filt (q : Nat) (x : Nat → R) (n : Nat) : gf4Y q x (n + 5) =
    (coef gf4B0 q * x (n + 5) + coef gf4A1 q * gf4Y q x (n + 4) + coef gf4A2 q * gf4Y q x (n + 3) +
        coef gf4A3 q * gf4Y q x (n + 2) + coef gf4A4 q * gf4Y q x (n + 1)) /
        (coef gf4B0 q + coef gf4A1 q + coef gf4A2 q + coef gf4A3 q + coef gf4A4 q) := by
  let ys := yPast (gf4F (coef gf4B0 q) (coef gf4A1 q) (coef gf4A2 q) (coef gf4A3 q) (coef gf4A4 q)) x (n + 5)
  have e : gf4Y q x (n + 5) = (coef gf4B0 q * x (n + 5) + coef gf4A1 q * ys.getD 0 (c! 0) + coef gf4A2 q * ys.getD 1 (c! 0) +
      coef gf4A3 q * ys.getD 2 (c! 0) + coef gf4A4 q * ys.getD 3 (c! 0)) *
      (c! 1 / (coef gf4B0 q + coef gf4A1 q + coef gf4A2 q + coef gf4A3 q + coef gf4A4 q)) := by
    have hl : ¬ ys.length < 5 := by show ¬ (yPast _ x (n + 5)).length < 5; rw [yPast_length]; omega
    exact if_neg (t := x (n + 5)) hl
  have g : ∀ k, k < 5 → ys.getD k (c! 0) = gf4Y q x (n + 5 - (k + 1)) := by
    intro k hk
    show (yPast _ x (n + 5)).getD k _ = _
    rw [← past_yVal, past_getD, if_pos (by omega)]; rfl
  rw [e, g 0 (by omega), g 1 (by omega), g 2 (by omega), g 3 (by omega), Int.cast_one, mul_one_div]
  rfl

theorem ceil_start [LawfulCeil R] [LawfulTrunc R] (v : R) (h0 : 0 < v) (h1 : v ≤ 1000) :
    ∃ s : Nat, toInt (CMath.ceil v) = .ok (s : Int) ∧ (s : R) - 1 < v ∧ v ≤ (s : R) := by
  obtain ⟨n, hn, ha, hb⟩ := LawfulCeil.ceil_spec v
  have hp : 0 < n := by
    have : (0 : R) < (n : R) := lt_of_lt_of_le h0 hb
    exact_mod_cast this
  have hq : n ≤ 1001 := by
    have : (n : R) < ((1001 : Int) : R) := by push_cast; linarith
    exact le_of_lt (by exact_mod_cast this)
  obtain ⟨s, rfl⟩ : ∃ s : Nat, n = (s : Int) := ⟨n.toNat, by omega⟩
  refine ⟨s, ?_, by exact_mod_cast ha, by exact_mod_cast hb⟩
  unfold toInt
  rw [hn, LawfulTrunc.trunc_intCast]
  exact i32_ok _ (by omega) (by omega)

theorem near_one (n : Int) (k : Int) (h1 : 1000000 - k ≤ n) (h2 : n ≤ 1000000 + k) :
    |((n : Int) : R) / 1000000 - 1| ≤ (k : R) / 1000000 := by
  have a : (((1000000 - k : Int)) : R) ≤ n := by exact_mod_cast h1
  have b : (n : R) ≤ ((1000000 + k : Int) : R) := by exact_mod_cast h2
  push_cast at a b
  rw [abs_le]
  constructor
  · rw [le_sub_iff_add_le, ← neg_div, le_div_iff₀ (by norm_num)]; 
    have : (-(k : R) / 1000000 + 1) * 1000000 = -k + 1000000 := by ring
    linarith
  · rw [sub_le_iff_le_add, div_le_iff₀ (by norm_num)]
    have : ((k : R) / 1000000 + 1) * 1000000 = k + 1000000 := by ring
    linarith

/-- Bounds on values carry over to the outputs of a call. -/
theorem Computes.bounded {batch : (Nat → R) → List R → M (Ret × List R)} {o : Nat → R} {val : (Nat → R) → Nat → R}
    (h : Computes batch o 0 val) {lo hi : R}
    (hv : ∀ (x : Nat → R) (N : Nat), (∀ i, i ≤ N → lo ≤ x i ∧ x i ≤ hi) → lo ≤ val x N ∧ val x N ≤ hi)
    (xs out : List R) (hx : ∀ v ∈ xs, lo ≤ v ∧ v ≤ hi) (hr : batch o xs = .ok (.okay, out)) : ∀ v ∈ out, lo ≤ v ∧ v ≤ hi := by
  obtain ⟨x, e⟩ := exists_pre xs
  rw [e, h x] at hr
  cases hr
  intro v hm
  simp only [pre, List.mem_map, List.mem_range, Nat.sub_zero] at hm
  obtain ⟨i, hi', rfl⟩ := hm
  refine hv x i fun j hj => hx _ ?_
  rw [e]
  simp only [pre, List.mem_map, List.mem_range]
  exact ⟨j, by omega, rfl⟩

theorem iir1_bounds (b a : R) (hb : 0 ≤ b) (ha : 0 ≤ a) (hs : b + a ≤ 1) (x : Nat → R) (N : Nat) (lo hi : R) (hlo : lo ≤ 0)
    (hhi : 0 ≤ hi) (h : ∀ i, i ≤ N → lo ≤ x i ∧ x i ≤ hi) : lo ≤ iir [b] [a] x N ∧ iir [b] [a] x N ≤ hi := by
  induction N with
  | zero =>
    simp only [iir, iirPast, dot_nil_right, past, dot_cons, dot_nil, add_zero]
    have := h 0 (by omega)
    constructor <;> nlinarith [mul_nonneg hb (sub_nonneg.2 this.1), mul_nonneg hb (sub_nonneg.2 this.2), mul_nonneg ha hhi, mul_nonneg ha (neg_nonneg.2 hlo)]
  | succ n ih =>
    have e : iir [b] [a] x (n + 1) = b * x (n + 1) + a * iir [b] [a] x n := by
      conv_lhs => unfold iir
      rw [iirPast, past, dot_cons, dot_nil, dot_cons, dot_nil, add_zero, add_zero]; rfl
    have hy := ih fun i hi => h i (by omega)
    have hx := h (n + 1) (by omega)
    rw [e]
    constructor <;> nlinarith [mul_nonneg hb (sub_nonneg.2 hx.1), mul_nonneg hb (sub_nonneg.2 hx.2), mul_nonneg ha (sub_nonneg.2 hy.1),
      mul_nonneg ha (sub_nonneg.2 hy.2), mul_nonneg (sub_nonneg.2 hs) hhi, mul_nonneg (sub_nonneg.2 hs) (neg_nonneg.2 hlo)]

theorem gf3_bounds_aux (x : Nat → R) (N : Nat) (lo hi : R) (hlo : lo ≤ 0)
    (hhi : 0 ≤ hi) (h : ∀ i, i ≤ N → lo ≤ x i ∧ x i ≤ hi) :
    lo ≤ iir [1/4] [1/4, 1/4, 1/4] x N ∧ iir [1/4] [1/4, 1/4, 1/4] x N ≤ hi := by
  induction N using Nat.strong_induction_on with
  | _ n ih =>
    have e : iir [1/4] [1/4, 1/4, 1/4] x n = (x n + (iirPast [1/4] [1/4, 1/4, 1/4] x n).getD 0 0 +
        (iirPast [1/4] [1/4, 1/4, 1/4] x n).getD 1 0 + (iirPast [1/4] [1/4, 1/4, 1/4] x n).getD 2 0) / 4 := by
      conv_lhs => unfold iir
      rw [dot1, dot3, past, List.getD_cons_zero]; ring
    have hk : ∀ k, lo ≤ (iirPast [1/4] [1/4, 1/4, 1/4] x n).getD k 0 ∧ (iirPast [1/4] [1/4, 1/4, 1/4] x n).getD k 0 ≤ hi := by
      intro k
      rw [iirPast_past, past_getD]
      split
      · exact ih _ (by omega) fun i hi => h i (by omega)
      · exact ⟨hlo, hhi⟩
    have hx := h n le_rfl
    have a := hk 0
    have b := hk 1
    have c := hk 2
    rw [e]
    constructor
    · rw [le_div_iff₀ (by norm_num)]; linarith
    · rw [div_le_iff₀ (by norm_num)]; linarith

end Ordered
end Verif
