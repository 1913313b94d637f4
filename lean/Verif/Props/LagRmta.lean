/- C89, continued: the recursive moving trend average runs ahead of a trend. -/
import Verif.Props.LagMore

namespace Verif
open Spec
open Converge (Tends)
set_option linter.unusedSectionVars false

section
variable {R : Type} [Field R] [LinearOrder R] [IsStrictOrderedRing R] [CMath R] [Archimedean R]

/-- rmta does not trail: in the end it stands where the line will be on the next bar, whatever its period and `beta` are.
Partial: any other `beta` is accepted too. -/
theorem rmta_lags_partial (o : Nat → R) (p : Nat) (hc : toInt (o 0) = .ok (p : Int)) (hp : 1 ≤ p) (h : |o 1| < 1) :
    LagsInTheEnd rmtaBatch o (p - 1) (-1) :=
  lagsEnd (rmta_run o p hc hp) fun x c b hx => by
    obtain ⟨off, hoff, ho⟩ : ∃ off, off = (if p = 1 then 0 else 1) ∧ off ≤ p := ⟨_, rfl, by split <;> omega⟩
    rw [← hoff]
    generalize o 1 = g at *
    have h1 : 1 - g ≠ 0 := by have := (abs_lt.1 h).2; intro h; linarith
    have hu : Tends (fun n => x (off + n) - b * (n : R)) (c + b * off) :=
      (detrend_shift off hx).congr 0 fun n _ => by rw [Nat.add_comm]
    have hb := Converge.first (f := fun n => (rmtaSt g off x n).1 - b / (1 - g) * (n : R)) (r := g)
      (v := fun n => (x (off + n) - b * (n : R)) - b / (1 - g)) h
      (fun n => by simp only [rmtaSt]; push_cast; field_simp; ring) (hu.sub (.const _))
    have hr := Converge.first (f := fun n => (rmtaSt g off x n).2 - b * (n : R)) (r := g)
      (v := fun n => (1 - g) * (2 * (x (off + n) - b * (n : R)) - (1 - g) * ((rmtaSt g off x n).1 - b / (1 - g) * (n : R))) - b) h
      (fun n => by simp only [rmtaSt]; push_cast; field_simp; ring)
      ((((hu.mul_const 2).sub (hb.mul_const (1 - g))).mul_const (1 - g)).sub (.const b))
    have := (hr.shift (p - off)).add (.const (b * ((p - off : Nat) : R)))
    rw [show ((1 - g) * (2 * (c + b * off) - (1 - g) * ((c + b * off - b / (1 - g)) / (1 - g))) - b) / (1 - g) + b * ((p - off : Nat) : R)
      = c + b * (((p - 1 : Nat) : R) - -1) by
        rw [Nat.cast_sub ho, Nat.cast_sub hp]; field_simp; push_cast; ring] at this
    exact this.congr 0 fun n _ => by
      rw [show n + p - off = n + (p - off) by omega]; push_cast; ring

/-! ### Concrete cases -/
example : LagsInTheEnd rmtaBatch (opts [4, 1/2] : Nat → ℚ) 3 (-1) := rmta_lags_partial (opts [4, 1/2] : Nat → ℚ) 4 (by decide +kernel) (by omega) (by decide +kernel)

end
end Verif
