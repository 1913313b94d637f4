/- Streams and batch calls in binary64: helper lemmas. -/
import Verif.Proof.Doubles
import Verif.Proof.BinaryExact
import Verif.Proof.Flow
import Verif.Proof.Smooth
import Verif.Proof.Average

namespace Verif
open F64 Spec
set_option linter.unusedSectionVars false
set_option exponentiation.threshold 3000

section
variable [Libm]

attribute [local irreducible] F64.ofInt F64.round F64.one F64.limit

theorem dadd_comm (a b : F64) : a + b = b + a := by
  rw [add_def, add_def]
  cases a with
  | nan => cases b <;> rfl
  | inf s =>
    cases b with
    | inf t => cases s <;> cases t <;> rfl
    | _ => rfl
  | fin s k hk =>
    cases b with
    | fin t l hl =>
      simp only [F64.add]
      by_cases h : s = t
      · subst h; rw [if_pos rfl, if_pos rfl, Nat.add_comm]
      · rw [if_neg h, if_neg (Ne.symm h)]
        rcases Nat.lt_trichotomy k l with h | h | h
        · rw [if_neg (by omega), if_pos h, if_pos h]
        · rw [if_neg (by omega), if_neg (by omega), if_neg (by omega), if_neg (by omega)]
        · rw [if_pos h, if_neg (by omega), if_pos h]
    | _ => rfl

/-- A whole number is its own ceiling. -/
theorem ceil_int (n : Nat) (h : Small (n : Int)) (h1 : 1 ≤ n) : CMath.ceil (((n : Int)) : F64) = ((n : Int) : F64) := by
  rw [int_eq _ h]
  have e : decide ((n : Int) < 0) = false := decide_eq_false (by omega)
  have ea : ((n : Int)).natAbs = n := Int.natAbs_natCast n
  have ok := small_ok h
  rw [ea] at ok
  have e1 : intD (n : Int) h = fin false (n * one) ok := by
    unfold intD
    congr 1
  rw [e1]
  show F64.neg (round true ((n * one + (one - 1)) / one * one) 1) = _
  have e2 : (n * one + (one - 1)) / one = n := by
    have := F64.one_pos
    rw [Nat.mul_comm, Nat.mul_add_div this, Nat.div_eq_of_lt (by omega), Nat.add_zero]
  rw [e2, round_rep true _ ok _ 1 Nat.one_pos (Nat.mul_one _).symm]
  rfl

theorem toInt_nat (n : Nat) (h : n ≤ 2147483647) : toInt (((n : Int)) : F64) = .ok (n : Int) := by
  unfold toInt i32
  rw [trunc_int _ (by unfold Small; omega), if_pos (by omega)]

/-- Half of an even whole number is exact. -/
theorem half_int (n : Nat) (h : Small (2 * (n : Int))) (h1 : 1 ≤ n) :
    (((2 * (n : Int) : Int)) : F64) / ((2 : Int) : F64) = ((n : Int) : F64) := by
  have s2 : Small 2 := by unfold Small; omega
  have sn : Small (n : Int) := by unfold Small at *; omega
  refine rounds_int (F64.div_rounds (small_fin _ h) (small_fin _ s2) (by rw [small_val _ s2]; norm_num)) _ sn ?_ (by omega)
  rw [small_val _ h, small_val _ s2, Int.cast_mul]
  have : ((2 : Int) : Rat) ≠ 0 := by norm_num
  rw [mul_div_cancel_left₀ _ this]

/-- The difference of two positive doubles is not `-0`, nor NaN. -/
theorem pos_sub_cases {a b : F64} (ha : IsFin a) (hb : IsFin b) (a0 : 0 < val a) (b0 : 0 < val b) :
    (c! 0 : F64) < a - b ∨ a - b < (c! 0 : F64) ∨ a - b = (c! 0 : F64) := by
  cases a with
  | fin s k hk =>
    cases b with
    | fin t l hl =>
      have hs : ∀ (u : Bool) (m : Nat) (h), 0 < val (fin u m h) → u = false := by
        intro u m h h0
        cases u with
        | false => rfl
        | true =>
          exfalso
          rw [val_fin_true] at h0
          have := div_nonneg (Nat.cast_nonneg (α := Rat) m) F64.oneQ_pos.le
          linarith
      obtain rfl := hs _ _ _ a0
      obtain rfl := hs _ _ _ b0
      rw [int_zero, sub_raw]
      have e : F64.add (fin false k hk) (F64.neg (fin false l hl)) =
          if l < k then round false (k - l) 1 else if k < l then round true (l - k) 1 else F64.zero false := by
        show F64.add (fin false k hk) (fin true l hl) = _
        simp only [F64.add]
        rw [if_neg (by decide)]
      rw [e]
      have one_rep : F64.Rep 1 := F64.Rep.of_lt (by norm_num)
      split
      · rename_i h
        left
        have hr : 1 ≤ roundNat (k - l) 1 := le_roundNat Nat.one_pos one_rep (by omega)
        rw [F64.round_def, F64.lt_def]
        split
        · simp only [F64.zero, F64.lt, units_false]
          exact decide_eq_true (by omega)
        · rfl
      · split
        · rename_i h
          right; left
          have hr : 1 ≤ roundNat (l - k) 1 := le_roundNat Nat.one_pos one_rep (by omega)
          rw [F64.round_def, F64.lt_def]
          split
          · simp only [F64.zero, F64.lt, units_false, units_true]
            exact decide_eq_true (by omega)
          · rfl
        · exact Or.inr (Or.inr rfl)
    | _ => exact absurd hb (by simp [F64.IsFin])
  | _ => exact absurd ha (by simp [F64.IsFin])

theorem lt_asymm' {x y : F64} (h : x < y) : ¬ y < x := by
  rw [F64.lt_def] at h ⊢
  cases x <;> cases y <;> simp [F64.lt] at h ⊢
  · simp_all
  · simp_all
  · simp_all
  · omega

theorem lt_irrefl' (x : F64) : ¬ x < x := by
  rw [F64.lt_def]
  cases x <;> simp [F64.lt]

/-- `MAX(0, d)` and `std::max(0., d)` give the same double for the difference of two positive prices. -/
theorem max_same {a b : F64} (ha : IsFin a) (hb : IsFin b) (a0 : 0 < val a) (b0 : 0 < val b) :
    cMax (c! 0) (a - b) = stdMax (c! 0) (a - b) := by
  rw [cMax_def, stdMax_def]
  rcases pos_sub_cases ha hb a0 b0 with h | h | h
  · rw [if_neg (lt_asymm' h), if_pos h]
  · rw [if_pos h, if_neg (lt_asymm' h)]
  · rw [h, if_neg (lt_irrefl' _)]
where
  cMax_def {R : Type} [Num R] (a b : R) : cMax a b = if b < a then a else b := rfl
  stdMax_def {R : Type} [Num R] (a b : R) : stdMax a b = if a < b then b else a := rfl

theorem tsiRec_zero {R : Type} [Num R] (p : R) (y : Nat → R) : tsiRec p y 0 = y 0 := rfl
theorem tsiRec_succ {R : Type} [Num R] (p : R) (y : Nat → R) (n : Nat) :
    tsiRec p y (n + 1) = (y (n + 1) - tsiRec p y n) * c! 2 / (c! 1 + p) + tsiRec p y n := rfl
theorem rmiRecS_zero {R : Type} [Num R] (p : R) (y : Nat → R) : rmiRecS p y 0 = y 0 := rfl
theorem rmiRecS_succ {R : Type} [Num R] (p : R) (y : Nat → R) (n : Nat) :
    rmiRecS p y (n + 1) = (y (n + 1) - rmiRecS p y n) * c! 2 / (p + c! 1) + rmiRecS p y n := rfl
theorem rmiRec_same (p : F64) (y : Nat → F64) (n : Nat) : rmiRecS p y n = tsiRec p y n := by
  induction n with
  | zero => rw [rmiRecS_zero, tsiRec_zero]
  | succ n ih => rw [rmiRecS_succ, tsiRec_succ, ih, dadd_comm p]

theorem rmiVal_same (o : Nat → F64) (p : Nat) (x : Nat → F64) (hx : ∀ i, IsFin (x i) ∧ 0 < val (x i)) (j : Nat) :
    rmiValS o p x j = rmiVal o p x j := by
  have hu : rmiUpS p x = rmiUp p x := funext fun k => by
    rw [up, upS]; exact (max_same (hx _).1 (hx _).1 (hx _).2 (hx _).2).symm
  have hd : rmiDownS p x = rmiDown p x := funext fun k => by
    rw [dn, dnS]; exact (max_same (hx _).1 (hx _).1 (hx _).2 (hx _).2).symm
  rw [v, vS, hu, hd, rmiRec_same, rmiRec_same]
where
  up {R : Type} [Num R] (p : Nat) (x : Nat → R) (k : Nat) : rmiUp p x k = cMax (c! 0) (x (k + p) - x k) := rfl
  upS {R : Type} [Num R] (p : Nat) (x : Nat → R) (k : Nat) : rmiUpS p x k = stdMax (c! 0) (x (k + p) - x k) := rfl
  dn {R : Type} [Num R] (p : Nat) (x : Nat → R) (k : Nat) : rmiDown p x k = cMax (c! 0) (x k - x (k + p)) := rfl
  dnS {R : Type} [Num R] (p : Nat) (x : Nat → R) (k : Nat) : rmiDownS p x k = stdMax (c! 0) (x k - x (k + p)) := rfl
  v {R : Type} [Num R] (o : Nat → R) (p : Nat) (x : Nat → R) (j : Nat) :
    rmiVal o p x j = rmiOut (tsiRec (o 0) (rmiUp p x) j) (tsiRec (o 0) (rmiDown p x) j) := rfl
  vS {R : Type} [Num R] (o : Nat → R) (p : Nat) (x : Nat → R) (j : Nat) :
    rmiValS o p x j = rmiOut (rmiRecS (o 0) (rmiUpS p x) j) (rmiRecS (o 0) (rmiDownS p x) j) := rfl

/-- The comparison of a size with a small number is the comparison of the integers, also for sizes beyond `2^53`. -/
theorem nat_lt (N q : Nat) (hq : q ≤ 2147483647) : ((N : Int) : F64) < ((q : Int) : F64) ↔ N < q := by
  by_cases h : N ≤ 2147483647
  · rw [IntExact.lt _ _ (by omega) (by unfold Small; omega)]; omega
  · have sq : Small (q : Int) := by unfold Small; omega
    refine iff_of_false ?_ (by omega)
    have e : decide ((N : Int) < 0) = false := decide_eq_false (by omega)
    have ea : ((q : Int)).natAbs = q := Int.natAbs_natCast q
    have ok := small_ok sq
    rw [ea] at ok
    have hle : q * one ≤ roundNat (((N : Int)).natAbs * one) 1 :=
      le_roundNat Nat.one_pos ok.1 (by rw [Int.natAbs_natCast, Nat.mul_one]; exact Nat.mul_le_mul_right _ (by omega))
    have eq : ((q : Int) : F64) = fin false (q * one) ok := by
      rw [int_eq _ sq]
      unfold intD
      congr 1
    rw [intCast_eq N, ofInt_def, e, F64.round_def, eq, F64.lt_def]
    split
    · simp only [F64.lt, units_false]
      exact fun h => absurd (of_decide_eq_true h) (by omega)
    · simp [F64.lt]

/-- A list all of whose elements satisfy `P` is an initial part of a series with `P`, if some element does. -/
theorem pre_of_all (xs : List F64) (h : ∀ v ∈ xs, IsFin v ∧ 0 < val v) :
    ∃ x : Nat → F64, pre x xs.length = xs ∧ ∀ i, IsFin (x i) ∧ 0 < val (x i) := by
  have s1 : Small 1 := by unfold Small; omega
  refine ⟨fun i => xs.getD i ((1 : Int) : F64), ?_, ?_⟩
  · apply List.ext_getElem (by simp [pre])
    intro i h1 h2
    simp [pre, h2]
  · intro i
    by_cases hi : i < xs.length
    · simp only [List.getD_eq_getElem?_getD, List.getElem?_eq_getElem hi, Option.getD_some]
      exact h _ (List.getElem_mem hi)
    · simp only [List.getD_eq_getElem?_getD, List.getElem?_eq_none (Nat.le_of_not_lt hi), Option.getD_none]
      exact ⟨small_fin 1 s1, by rw [small_val 1 s1]; norm_num⟩

/-! ### fi -/

/-- `(f - f) * a + f` is `f` for a finite nonzero `f` and a finite `a`. -/
theorem self_smooth {f a : F64} (hf : IsFin f) (h0 : val f ≠ 0) (ha : IsFin a) : (f - f) * a + f = f := by
  have e1 : IsFin (f - f) ∧ val (f - f) = 0 := by
    have := (F64.sub_rounds hf hf).exact zero_fin (by rw [zero_val, sub_self])
    rwa [sub_self] at this
  have e2 : IsFin ((f - f) * a) ∧ val ((f - f) * a) = 0 := by
    have := (F64.mul_rounds e1.1 ha).exact zero_fin (by rw [zero_val, e1.2, zero_mul])
    rwa [e1.2, zero_mul] at this
  obtain ⟨g, v⟩ := (F64.add_rounds e2.1 hf).exact hf (by rw [e2.2, zero_add])
  rw [e2.2, zero_add] at v
  exact eq_of_val g hf v (by rw [v]; exact h0)

theorem fiRec_zero {R : Type} [Num R] (a : R) (f : Nat → R) : fiRec a f 0 = (f 0 - f 0) * a + f 0 := rfl
theorem fiRec_succ {R : Type} [Num R] (a : R) (f : Nat → R) (n : Nat) :
    fiRec a f (n + 1) = (f (n + 1) - fiRec a f n) * a + fiRec a f n := rfl

theorem fiRec_same {a : F64} (ha : IsFin a) (f : Nat → F64) (hf : IsFin (f 0)) (h0 : val (f 0) ≠ 0) (n : Nat) :
    fiRec a f n = emaRec a f n := by
  induction n with
  | zero => rw [fiRec_zero, emaRec_zero, self_smooth hf h0 ha]
  | succ n ih => rw [fiRec_succ, emaRec_succ, ih]

end
end Verif
