/- The model of doubles rounds as IEEE 754 prescribes: to the nearest double, ties to even. -/
import Verif.Proof.Binary64
import Mathlib.Algebra.Order.Ring.Abs

namespace Verif.F64
set_option exponentiation.threshold 3000

/-- No whole number is closer to `n / d` than `nearest n d`. -/
theorem nearest_closest {n d : Nat} (hd : 0 < d) (j : Nat) :
    |((nearest n d * d : Nat) : Int) - n| ≤ |((j * d : Nat) : Int) - n| := by
  have e := Nat.div_add_mod n d
  have hm := Nat.mod_lt n hd
  rw [Nat.mul_comm] at e
  have hj : j ≤ n / d ∨ n / d + 1 ≤ j := by omega
  have hlo : j ≤ n / d → j * d ≤ n / d * d := fun h => Nat.mul_le_mul_right _ h
  have hhi : n / d + 1 ≤ j → n / d * d + d ≤ j * d := fun h => by
    have := Nat.mul_le_mul_right d h
    rwa [Nat.add_mul, Nat.one_mul] at this
  have hs : ((n / d + 1) * d) = n / d * d + d := by rw [Nat.add_mul, Nat.one_mul]
  generalize hq : n / d * d = q at *
  generalize j * d = jd at *
  have hn : nearest n d * d = q ∧ 2 * (n % d) ≤ d ∨ nearest n d * d = q + d ∧ d ≤ 2 * (n % d) := by
    unfold nearest
    simp only
    split
    · right; rw [hs]; omega
    · split
      · rcases Nat.mod_two_eq_zero_or_one (n / d) with h | h
        · left; rw [h, Nat.add_zero, hq]; omega
        · right; rw [h, hs]; omega
      · left; rw [hq]; omega
  have habs : ∀ a b : Int, |a - b| = if b ≤ a then a - b else b - a := by
    intro a b
    split
    · exact abs_of_nonneg (by omega)
    · rw [abs_of_neg (by omega)]; omega
  rw [habs, habs]
  rcases hn with ⟨h1, h2⟩ | ⟨h1, h2⟩ <;> rw [h1] <;> rcases hj with h | h <;>
    [have := hlo h; have := hhi h; have := hlo h; have := hhi h] <;> split <;> split <;> omega

/-- No number of at most 53 significant bits is closer to `n / d` than `roundNat n d`. -/
theorem roundNat_closest {n d k : Nat} (hd : 0 < d) (hk : Rep k) :
    |((roundNat n d * d : Nat) : Int) - n| ≤ |((k * d : Nat) : Int) - n| := by
  unfold roundNat
  have hD : 0 < d * step n d := Nat.mul_pos hd (step_pos n d)
  have key : ∀ j : Nat, |((nearest n (d * step n d) * step n d * d : Nat) : Int) - n| ≤ |((j * step n d * d : Nat) : Int) - n| := by
    intro j
    have := nearest_closest (n := n) hD j
    rwa [show nearest n (d * step n d) * step n d * d = nearest n (d * step n d) * (d * step n d) by ring,
      show j * step n d * d = j * (d * step n d) by ring]
  rcases step_cases n d hd with ⟨h1, h2⟩ | ⟨e, h1, h2, h3⟩
  · have := key k
    rwa [show k * step n d * d = k * d by rw [h1, Nat.mul_one]] at this
  · obtain ⟨m, f, rfl, hm⟩ := hk
    by_cases hf : e + 1 ≤ f
    · obtain ⟨g, rfl⟩ : ∃ g, f = g + (e + 1) := ⟨f - (e + 1), by omega⟩
      have := key (m * 2 ^ g)
      rwa [show m * 2 ^ g * step n d * d = m * 2 ^ (g + (e + 1)) * d by rw [h1, pow_add]; ring] at this
    · have a : m * 2 ^ f ≤ 2 ^ (e + 53) := by
        calc m * 2 ^ f ≤ m * 2 ^ e := Nat.mul_le_mul_left _ (Nat.pow_le_pow_right (by norm_num) (by omega))
          _ ≤ 2 ^ 53 * 2 ^ e := Nat.mul_le_mul_right _ hm.le
          _ = 2 ^ (e + 53) := by rw [pow_add]; ring
      have b : m * 2 ^ f * d ≤ 2 ^ (e + 53) * d := Nat.mul_le_mul_right d a
      refine (key (2 ^ 52)).trans ?_
      rw [show 2 ^ 52 * step n d * d = 2 ^ (e + 53) * d by
        rw [h1, show e + 53 = 52 + (e + 1) by omega, pow_add 2 52]]
      rw [abs_of_nonpos (by omega), abs_of_nonpos (by omega)]
      omega

/-- Halfway between two neighbours the even multiple of the spacing is taken. -/
theorem roundNat_tie {n d : Nat} (h : 2 * (n % (d * step n d)) = d * step n d) : ∃ m, roundNat n d = 2 * m * step n d := by
  unfold roundNat nearest
  simp only
  rw [if_neg (by omega), if_pos h]
  refine ⟨(n / (d * step n d) + n / (d * step n d) % 2) / 2, ?_⟩
  congr 1
  omega

/-- `2^53 + 1` is halfway between `2^53` and `2^53 + 2`. -/
example : 2 * ((2 ^ 53 + 1) % (1 * step (2 ^ 53 + 1) 1)) = 1 * step (2 ^ 53 + 1) 1 ∧ roundNat (2 ^ 53 + 1) 1 = 2 ^ 53 := by
  decide +kernel

attribute [local irreducible] one limit

/-- A finite result of rounding `q` is at least as close to `q` as any other double. -/
theorem Rounds.closest {q : Rat} {r c : F64} (h : Rounds q r) (hr : IsFin r) (hc : IsFin c) : |val r - q| ≤ |val c - q| := by
  obtain ⟨s, n, d, hd, rfl, rfl⟩ := h
  rw [round_def] at hr ⊢
  split at hr
  case isFalse => exact absurd hr (by simp [IsFin])
  rename_i hl
  rw [dif_pos hl]
  cases c with
  | fin t k hk =>
    have hdq : (0 : Rat) < d := by exact_mod_cast hd
    have ho := oneQ_pos
    have h1 := roundNat_closest (n := n) hd hk.1
    have h0 := roundNat_closest (n := n) hd Rep.zero
    -- everything in units of `1 / (d * one)`
    have e : ∀ (u : Bool) (m : Nat) (hm), |val (fin u m hm) - (units s n : Rat) / ((d : Rat) * (one : Rat))| =
        |((units u (m * d) - units s n : Int) : Rat)| / ((d : Rat) * (one : Rat)) := by
      intro u m hm
      have hv : val (fin u m hm) = ((units u (m * d) : Int) : Rat) / ((d : Rat) * (one : Rat)) := by
        show ((units u m : Int) : Rat) / (one : Rat) = _
        cases u <;> simp only [units_false, units_true] <;> push_cast <;> generalize (one : Rat) = w at * <;> field_simp
      rw [hv, ← sub_div, abs_div, abs_of_pos (mul_pos hdq ho), Int.cast_sub]
    rw [e, e]
    refine div_le_div_of_nonneg_right ?_ (mul_pos hdq ho).le
    rw [← Int.cast_abs, ← Int.cast_abs, Int.cast_le]
    rw [Nat.zero_mul, Nat.cast_zero, zero_sub] at h0
    generalize roundNat n d * d = rd at *
    generalize k * d = kd at *
    have key : ∀ r k n : Int, 0 ≤ r → 0 ≤ k → 0 ≤ n → |r - n| ≤ |k - n| → |r - n| ≤ |-n| → |r - n| ≤ |-k - n| := by
      intro r k n _ _ _ h1 h2
      refine h2.trans ?_
      rw [abs_of_nonpos (by omega), abs_of_nonpos (by omega)]
      omega
    have flip : ∀ a b : Int, |-a - -b| = |a - b| := fun a b => by rw [← abs_neg]; congr 1; ring
    have flip' : ∀ a b : Int, |a - -b| = |-a - b| := fun a b => by rw [← abs_neg]; congr 1; ring
    have key' := key rd kd n (by omega) (by omega) (by omega) h1 h0
    cases s <;> cases t <;> simp only [units_false, units_true]
    · exact h1
    · exact key'
    · rw [flip, flip']; exact key'
    · rw [flip, flip]; exact h1
  | _ => exact absurd hc (by simp [IsFin])

section
variable [Libm]

/-- Each operation returns a double closest to the exact result, unless that overflows. -/
theorem add_closest {a b c : F64} (ha : IsFin a) (hb : IsFin b) (hc : IsFin c) (hr : IsFin (a + b)) :
    |val (a + b) - (val a + val b)| ≤ |val c - (val a + val b)| := (add_rounds ha hb).closest hr hc
theorem sub_closest {a b c : F64} (ha : IsFin a) (hb : IsFin b) (hc : IsFin c) (hr : IsFin (a - b)) :
    |val (a - b) - (val a - val b)| ≤ |val c - (val a - val b)| := (sub_rounds ha hb).closest hr hc
theorem mul_closest {a b c : F64} (ha : IsFin a) (hb : IsFin b) (hc : IsFin c) (hr : IsFin (a * b)) :
    |val (a * b) - val a * val b| ≤ |val c - val a * val b| := (mul_rounds ha hb).closest hr hc
theorem div_closest {a b c : F64} (ha : IsFin a) (hb : IsFin b) (hc : IsFin c) (h0 : val b ≠ 0) (hr : IsFin (a / b)) :
    |val (a / b) - val a / val b| ≤ |val c - val a / val b| := (div_rounds ha hb h0).closest hr hc
theorem intCast_closest (i : Int) {c : F64} (hc : IsFin c) (hr : IsFin ((i : Int) : F64)) :
    |val ((i : Int) : F64) - i| ≤ |val c - i| := (intCast_rounds i).closest hr hc

/-- A case: `1 + 2`. -/
example : IsFin ((1 : Int) : F64) ∧ IsFin ((2 : Int) : F64) ∧ IsFin (((1 : Int) : F64) + ((2 : Int) : F64)) :=
  have h1 := intCast_fin 1 (by norm_num)
  have h2 := intCast_fin 2 (by norm_num)
  have h3 := intCast_fin 3 (by norm_num)
  ⟨h1.1, h2.1, ((add_rounds h1.1 h2.1).exact h3.1 (by rw [h1.2, h2.2, h3.2]; norm_num)).1⟩

end
end Verif.F64
