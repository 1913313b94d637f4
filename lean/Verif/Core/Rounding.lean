/- Rounding to 53 significant bits: the arithmetic behind `Core/Binary64.lean`. -/
import Mathlib.Data.Nat.Log
import Mathlib.Tactic.Linarith
import Mathlib.Tactic.Ring
import Mathlib.Tactic.Positivity
import Mathlib.Tactic.NormNum

namespace Verif.F64
set_option exponentiation.threshold 3000

/-- The quotient `n / d` rounded to the nearest whole number, ties to even (`d > 0`). -/
def nearest (n d : Nat) : Nat :=
  let q := n / d
  let r := n % d
  if d < 2 * r then q + 1
  else if 2 * r = d then q + q % 2
  else q

/-- The spacing of the doubles around `n / d` units: below `2^53` units every whole number of units is a double; from
`2^e` to `2^(e+1)` units the doubles are the multiples of `2^(e-52)`. -/
def step (n d : Nat) : Nat := 2 ^ (Nat.log2 (n / d) - 52)

/-- `n / d` units rounded to 53 significant bits, ties to even (`d > 0`). -/
def roundNat (n d : Nat) : Nat := nearest n (d * step n d) * step n d

/-- The first number of units beyond the largest finite double: `2^1024 = 2^2098` units. -/
def limit : Nat := 2 ^ 2098

/-- One, in units. -/
def one : Nat := 2 ^ 1074

/-- `k` units have at most 53 significant bits. -/
def Rep (k : Nat) : Prop := ∃ m e : Nat, k = m * 2 ^ e ∧ m < 2 ^ 53

theorem nearest_le {n d k : Nat} (hd : 0 < d) (h : n ≤ k * d) : nearest n d ≤ k := by
  unfold nearest
  have e := Nat.div_add_mod n d
  have hm := Nat.mod_lt n hd
  have hq : n / d ≤ k := by
    rw [← Nat.mul_div_left k hd]; exact Nat.div_le_div_right h
  simp only
  by_cases hk : n / d = k
  · have : n % d = 0 := by rw [hk] at e; rw [Nat.mul_comm] at e; omega
    rw [this, if_neg (by omega), if_neg (by omega)]; omega
  · have : n / d + 1 ≤ k := by omega
    split
    · omega
    · split <;> omega

theorem le_nearest {n d k : Nat} (hd : 0 < d) (h : k * d ≤ n) : k ≤ nearest n d := by
  unfold nearest
  have hq : k ≤ n / d := (Nat.le_div_iff_mul_le hd).2 h
  simp only
  split
  · omega
  · split <;> omega

theorem Rep.zero : Rep 0 := ⟨0, 0, by simp, by norm_num⟩
theorem Rep.of_lt {k : Nat} (h : k < 2 ^ 53) : Rep k := ⟨k, 0, by simp, h⟩
theorem Rep.pow (e : Nat) : Rep (2 ^ e) := ⟨1, e, by simp, by norm_num⟩
theorem Rep.shift {k : Nat} (e : Nat) (h : Rep k) : Rep (k * 2 ^ e) := by
  obtain ⟨m, f, rfl, hm⟩ := h
  exact ⟨m, f + e, by rw [pow_add]; ring, hm⟩

theorem step_pos (n d : Nat) : 0 < step n d := by unfold step; positivity

/-- Either the spacing is 1, or it is `2^(e+1)` with the quotient between `2^(e+53)` and `2^(e+54)`. -/
theorem step_cases (n d : Nat) (hd : 0 < d) : (step n d = 1 ∧ n < 2 ^ 53 * d) ∨
    ∃ e, step n d = 2 ^ (e + 1) ∧ 2 ^ (e + 53) * d ≤ n ∧ n < 2 ^ (e + 54) * d := by
  unfold step
  by_cases h : Nat.log2 (n / d) ≤ 52
  · left
    refine ⟨by rw [show Nat.log2 (n / d) - 52 = 0 by omega]; rfl, ?_⟩
    have : n / d < 2 ^ 53 := lt_of_lt_of_le Nat.lt_log2_self (Nat.pow_le_pow_right (by norm_num) (by omega))
    exact (Nat.div_lt_iff_lt_mul hd).1 this
  · right
    refine ⟨Nat.log2 (n / d) - 53, by congr 1; omega, ?_, ?_⟩
    · have h0 : n / d ≠ 0 := by intro h0; simp [h0] at h
      have := Nat.log2_self_le h0
      rw [show Nat.log2 (n / d) - 53 + 53 = Nat.log2 (n / d) by omega]
      exact (Nat.le_div_iff_mul_le hd).1 this
    · have := Nat.lt_log2_self (n := n / d)
      rw [show Nat.log2 (n / d) - 53 + 54 = Nat.log2 (n / d) + 1 by omega]
      exact (Nat.div_lt_iff_lt_mul hd).1 this

theorem roundNat_rep (n d : Nat) (hd : 0 < d) : Rep (roundNat n d) := by
  unfold roundNat
  rcases step_cases n d hd with ⟨h1, h2⟩ | ⟨e, h1, h2, h3⟩
  · rw [h1]
    have : nearest n (d * 1) ≤ 2 ^ 53 := nearest_le (by omega) (by rw [Nat.mul_one]; exact h2.le)
    rcases Nat.lt_or_eq_of_le this with h | h
    · exact ⟨_, 0, by rfl, h⟩
    · rw [h]; exact ⟨1, 53, rfl, by norm_num⟩
  · rw [h1]
    have : nearest n (d * 2 ^ (e + 1)) ≤ 2 ^ 53 := nearest_le (by positivity) (by
      refine h3.le.trans (le_of_eq ?_); rw [show e + 54 = 53 + (e + 1) by omega, pow_add]; ring)
    rcases Nat.lt_or_eq_of_le this with h | h
    · exact ⟨_, e + 1, rfl, h⟩
    · rw [h, ← pow_add]; exact Rep.pow _

theorem roundNat_le {n d k : Nat} (hd : 0 < d) (hk : Rep k) (h : n ≤ k * d) : roundNat n d ≤ k := by
  unfold roundNat
  rcases step_cases n d hd with ⟨h1, h2⟩ | ⟨e, h1, h2, h3⟩
  · rw [h1]; simpa using nearest_le (n := n) (d := d) hd h
  · rw [h1]
    obtain ⟨m, f, rfl, hm⟩ := hk
    by_cases hf : e + 1 ≤ f
    · obtain ⟨g, rfl⟩ : ∃ g, f = g + (e + 1) := ⟨f - (e + 1), by omega⟩
      have := nearest_le (n := n) (d := d * 2 ^ (e + 1)) (k := m * 2 ^ g) (by positivity)
        (h.trans (le_of_eq (by rw [pow_add]; ring)))
      calc _ ≤ m * 2 ^ g * 2 ^ (e + 1) := Nat.mul_le_mul_right _ this
        _ = _ := by rw [pow_add 2 g, Nat.mul_assoc]
    · exfalso
      have a : m * 2 ^ f < 2 ^ (e + 53) := by
        calc m * 2 ^ f ≤ m * 2 ^ e := Nat.mul_le_mul_left _ (Nat.pow_le_pow_right (by norm_num) (by omega))
          _ < 2 ^ 53 * 2 ^ e := Nat.mul_lt_mul_of_pos_right hm (by positivity)
          _ = 2 ^ (e + 53) := by rw [pow_add]; ring
      have b : m * 2 ^ f * d < 2 ^ (e + 53) * d := Nat.mul_lt_mul_of_pos_right a hd
      omega

theorem le_roundNat {n d k : Nat} (hd : 0 < d) (hk : Rep k) (h : k * d ≤ n) : k ≤ roundNat n d := by
  unfold roundNat
  rcases step_cases n d hd with ⟨h1, h2⟩ | ⟨e, h1, h2, h3⟩
  · rw [h1]; simpa using le_nearest (n := n) (d := d) hd h
  · rw [h1]
    obtain ⟨m, f, rfl, hm⟩ := hk
    by_cases hf : e + 1 ≤ f
    · obtain ⟨g, rfl⟩ : ∃ g, f = g + (e + 1) := ⟨f - (e + 1), by omega⟩
      have := le_nearest (n := n) (d := d * 2 ^ (e + 1)) (k := m * 2 ^ g) (by positivity)
        ((le_of_eq (by rw [pow_add]; ring)).trans h)
      calc _ = m * 2 ^ g * 2 ^ (e + 1) := by rw [pow_add 2 g, Nat.mul_assoc]
        _ ≤ _ := Nat.mul_le_mul_right _ this
    · have a : m * 2 ^ f ≤ 2 ^ (e + 53) := by
        calc m * 2 ^ f ≤ m * 2 ^ e := Nat.mul_le_mul_left _ (Nat.pow_le_pow_right (by norm_num) (by omega))
          _ ≤ 2 ^ 53 * 2 ^ e := Nat.mul_le_mul_right _ hm.le
          _ = 2 ^ (e + 53) := by rw [pow_add]; ring
      have := le_nearest (n := n) (d := d * 2 ^ (e + 1)) (k := 2 ^ 52) (by positivity)
        ((le_of_eq (by rw [show e + 53 = 52 + (e + 1) by omega, pow_add]; ring)).trans h2)
      calc _ ≤ 2 ^ (e + 53) := a
        _ = 2 ^ 52 * 2 ^ (e + 1) := by rw [← pow_add]; congr 1; omega
        _ ≤ _ := Nat.mul_le_mul_right _ this

theorem roundNat_exact {n d k : Nat} (hd : 0 < d) (hk : Rep k) (h : n = k * d) : roundNat n d = k :=
  le_antisymm (roundNat_le hd hk h.le) (le_roundNat hd hk h.ge)

theorem limit_rep : Rep limit := Rep.pow _
theorem one_rep : Rep one := Rep.pow _
theorem Rep.mul_one {k : Nat} (h : Rep k) : Rep (k * one) := h.shift 1074
theorem one_pos : 0 < one := by unfold one; positivity

/-- Rounding always gives a number of at most 53 significant bits (`d = 0`, which does not occur, included). -/
theorem roundNat_rep' (n d : Nat) : Rep (roundNat n d) := by
  rcases Nat.eq_zero_or_pos d with rfl | hd
  · unfold roundNat nearest step
    simp only [Nat.zero_mul, Nat.div_zero, Nat.mod_zero, Nat.zero_add, Nat.zero_mod]
    rw [show Nat.log2 0 - 52 = 0 from rfl, pow_zero, Nat.mul_one]
    split
    · exact Rep.of_lt (by norm_num)
    · split <;> exact Rep.zero
  · exact roundNat_rep n d hd

theorem one_lt_limit : 2 ^ 53 * one ≤ limit := by
  unfold one limit; rw [← pow_add]; exact Nat.pow_le_pow_right (by norm_num) (by norm_num)
theorem limit_pos : 0 < limit := by unfold limit; positivity

end Verif.F64
