/-
What IEEE doubles and exact arithmetic have in common: operations on small integers are exact.  Needed where the code
keeps a period as `TI_REAL` and compares or adds it to `int`s.
-/
import Verif.Core.Laws
import Verif.Core.Loops
import Mathlib.Algebra.Order.Ring.Cast
import Mathlib.Tactic.Linarith

set_option linter.unusedVariables false
set_option linter.unusedSimpArgs false

namespace Verif

/-- Integers a `double` represents exactly. -/
def Small (n : Int) : Prop := -9007199254740992 ≤ n ∧ n ≤ 9007199254740992

/-- Operations on small integers with a small result are exact. IEEE doubles satisfy this
(`Proof/BinaryExact.lean`), as does every field. (In `mul`, a negative number times zero, which is `-0`, is excluded. In `lt`, a larger `a` may be rounded, but not below `b`.  In `trunc_sub_one`, `v - 1` is exact.) -/
class IntExact (R : Type) [Num R] : Prop where
  trunc : ∀ n : Int, Small n → CMath.trunc ((n : Int) : R) = n
  add : ∀ a b : Int, Small a → Small b → Small (a + b) → ((a : Int) : R) + ((b : Int) : R) = ((a + b : Int) : R)
  sub : ∀ a b : Int, Small a → Small b → Small (a - b) → ((a : Int) : R) - ((b : Int) : R) = ((a - b : Int) : R)
  mul : ∀ a b : Int, Small a → Small b → Small (a * b) → 0 ≤ a ∧ 0 ≤ b ∨ a * b ≠ 0 → ((a : Int) : R) * ((b : Int) : R) = ((a * b : Int) : R)
  neg : ∀ a : Int, Small a → a ≠ 0 → -((a : Int) : R) = ((-a : Int) : R)
  lt : ∀ a b : Int, -9007199254740992 ≤ a → Small b → (((a : Int) : R) < ((b : Int) : R) ↔ a < b)
  trunc_sub_one : ∀ v : R, 1 ≤ CMath.trunc v → CMath.trunc v ≤ 2147483647 → CMath.trunc (v - ((1 : Int) : R)) = CMath.trunc v - 1
  lt_one : ∀ v : R, 1 ≤ CMath.trunc v → ¬ v < ((1 : Int) : R)
  le : ∀ a b : Int, Small a → Small b → (((a : Int) : R) ≤ ((b : Int) : R) ↔ a ≤ b)

instance {R : Type} [Field R] [LinearOrder R] [IsStrictOrderedRing R] [CMath R] [LawfulTrunc R] [LawfulRound R] : IntExact R where
  trunc n _ := LawfulTrunc.trunc_intCast n
  add a b _ _ _ := (Int.cast_add a b).symm
  sub a b _ _ _ := (Int.cast_sub a b).symm
  mul a b _ _ _ _ := (Int.cast_mul a b).symm
  neg a _ _ := (Int.cast_neg a).symm
  lt a b _ _ := Int.cast_lt
  trunc_sub_one v h _ := by
    have h0 : 0 ≤ v := by
      by_contra hn
      have := (LawfulRound.trunc_neg v (not_le.1 hn)).1
      have h1 : (1 : R) ≤ ((CMath.trunc v : Int) : R) := by exact_mod_cast h
      linarith
    have hv := LawfulRound.trunc_nonneg v h0
    have h1 : (1 : R) ≤ ((CMath.trunc v : Int) : R) := by exact_mod_cast h
    have hw := LawfulRound.trunc_nonneg (v - ((1 : Int) : R)) (by push_cast; linarith)
    push_cast at hw ⊢
    have a1 : ((CMath.trunc (v - 1) : Int) : R) < ((CMath.trunc v : Int) : R) := by linarith
    have a2 : ((CMath.trunc v : Int) : R) < ((CMath.trunc (v - 1) + 2 : Int) : R) := by push_cast; linarith
    have b1 := Int.cast_lt.1 a1
    have b2 := Int.cast_lt.1 a2
    omega
  lt_one v h := by
    rw [not_lt]
    by_contra hn
    rw [not_le] at hn
    push_cast at hn
    have h1 : (1 : R) ≤ ((CMath.trunc v : Int) : R) := by exact_mod_cast h
    by_cases h0 : 0 ≤ v
    · linarith [(LawfulRound.trunc_nonneg v h0).1]
    · linarith [(LawfulRound.trunc_neg v (not_le.1 h0)).1]
  le a b _ _ := Int.cast_le

/-- `i` after the loop `for (; i < hi && i < size; ++i)`. -/
def upto (i hi size : Int) : Int := max i (min hi size)

theorem toInt_cast {R : Type} [Num R] [IntExact R] (p : Int) (h : -2147483648 ≤ p ∧ p ≤ 2147483647) :
    toInt ((p : Int) : R) = .ok p := by
  unfold toInt
  rw [IntExact.trunc p (by unfold Small; omega)]
  unfold i32
  rw [if_pos h]

theorem toInt_trunc {R : Type} [CMath R] {v : R} {p : Int} (h : toInt v = .ok p) :
    CMath.trunc v = p ∧ -2147483648 ≤ p ∧ p ≤ 2147483647 := by
  refine ⟨?_, toInt_range h⟩
  unfold toInt i32 at h
  split at h
  · cases h; rfl
  · cases h

/-- `period - 1` computed before truncation. -/
theorem toInt_sub_one {R : Type} [Num R] [IntExact R] {v : R} {p : Nat} (h : toInt v = .ok (p : Int)) (hp : 1 ≤ p) :
    toInt (v - c! 1) = .ok ((p - 1 : Nat) : Int) := by
  obtain ⟨h1, h2, h3⟩ := toInt_trunc h
  unfold toInt
  rw [IntExact.trunc_sub_one v (by omega) (by omega), h1, i32_ok _ (by omega) (by omega)]
  congr 1; omega

theorem not_lt_one {R : Type} [Num R] [IntExact R] {v : R} {p : Nat} (h : toInt v = .ok (p : Int)) (hp : 1 ≤ p) :
    ¬ v < c! 1 := IntExact.lt_one v (by rw [(toInt_trunc h).1]; omega)

end Verif
