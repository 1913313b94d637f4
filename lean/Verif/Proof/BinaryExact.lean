/- IEEE doubles compute exactly with small integers: every theorem that assumes `IntExact` holds for them. -/
import Verif.Proof.Binary64
import Verif.Core.Exact

namespace Verif
open F64
set_option linter.unusedSectionVars false
set_option exponentiation.threshold 3000

section
variable [Libm]

attribute [local irreducible] F64.ofInt F64.round F64.one F64.limit

/-- An integer of at most `2^53` in magnitude is a double. -/
theorem small_ok {n : Int} (h : Small n) : F64.Rep (n.natAbs * one) ∧ n.natAbs * one < limit := by
  have h' : n.natAbs ≤ 2 ^ 53 := by
    have : (2 : Nat) ^ 53 = 9007199254740992 := by norm_num
    rw [this]; unfold Small at h; omega
  constructor
  · rcases Nat.lt_or_eq_of_le h' with h | h
    · exact (F64.Rep.of_lt h).mul_one
    · rw [h]; exact (F64.Rep.pow 53).mul_one
  · calc n.natAbs * one ≤ 2 ^ 53 * one := Nat.mul_le_mul_right _ h'
      _ < 2 ^ 54 * one := Nat.mul_lt_mul_of_pos_right (Nat.pow_lt_pow_right (by norm_num) (by norm_num)) F64.one_pos
      _ ≤ limit := by unfold one limit; rw [← pow_add]; exact Nat.pow_le_pow_right (by norm_num) (by norm_num)

/-- The double of a small integer. -/
def intD (n : Int) (h : Small n) : F64 := fin (decide (n < 0)) (n.natAbs * one) (small_ok h)

theorem round_rep (s : Bool) (k : Nat) (ok : F64.Rep k ∧ k < limit) (n d : Nat) (hd : 0 < d) (e : n = k * d) :
    round s n d = fin s k ok := by
  have e' := roundNat_exact hd ok.1 e
  rw [round_def, dif_pos (by rw [e']; exact ok.2)]
  congr 1

theorem int_eq (n : Int) (h : Small n) : ((n : Int) : F64) = intD n h := by
  rw [intCast_eq, ofInt_def]
  exact round_rep _ _ (small_ok h) _ 1 Nat.one_pos (Nat.mul_one _).symm

theorem intD_fin (n : Int) (h : Small n) : IsFin (intD n h) := trivial
theorem intD_val (n : Int) (h : Small n) : val (intD n h) = n := by
  show ((units (decide (n < 0)) (n.natAbs * one) : Int) : Rat) / (one : Rat) = n
  rw [units_int, mul_div_cancel_right₀ _ oneQ_pos.ne']
theorem small_fin (n : Int) (h : Small n) : IsFin ((n : Int) : F64) := by rw [int_eq n h]; exact intD_fin n h
theorem small_val (n : Int) (h : Small n) : val ((n : Int) : F64) = n := by rw [int_eq n h]; exact intD_val n h

/-- Two finite doubles with the same value other than zero are the same. -/
theorem eq_of_val {a b : F64} (ha : IsFin a) (hb : IsFin b) (h : val a = val b) (h0 : val a ≠ 0) : a = b := by
  cases a with
  | fin s k hk =>
    cases b with
    | fin t l hl =>
      have e : units s k = units t l := le_antisymm ((val_le_val _ _ _ _ hk hl).1 h.le) ((val_le_val _ _ _ _ hl hk).1 h.ge)
      have hk0 : k ≠ 0 := by
        rintro rfl
        apply h0
        cases s <;> simp [val]
      cases s <;> cases t <;> simp only [units_false, units_true] at e
      · have : k = l := by omega
        subst this; rfl
      · omega
      · omega
      · have : k = l := by omega
        subst this; rfl
    | _ => exact absurd hb (by simp [IsFin])
  | _ => exact absurd ha (by simp [IsFin])

theorem rounds_int {q : Rat} {r : F64} (h : Rounds q r) (n : Int) (hs : Small n) (hq : q = n) (h0 : n ≠ 0) : r = ((n : Int) : F64) := by
  obtain ⟨f, v⟩ := h.exact (small_fin n hs) (by rw [small_val n hs, hq])
  exact eq_of_val f (small_fin n hs) (by rw [v, hq, small_val n hs]) (by rw [v, hq]; exact_mod_cast h0)

theorem zero_small : Small 0 := by unfold Small; omega
theorem int_zero : ((0 : Int) : F64) = zero false := by
  rw [int_eq 0 zero_small]
  unfold intD zero
  congr 1
  exact Nat.zero_mul _

theorem add_raw (a b : F64) : a + b = F64.add a b := rfl
theorem sub_raw (a b : F64) : a - b = F64.add a (F64.neg b) := rfl
theorem trunc_raw (a : F64) : CMath.trunc a = F64.truncate a := rfl
theorem neg_raw (a : F64) : -a = F64.neg a := rfl

/-- Opposite numbers cancel to `+0`. -/
theorem cancel (s t : Bool) (k : Nat) (h h') (hst : s ≠ t) : F64.add (fin s k h) (fin t k h') = zero false := by
  simp only [F64.add, if_neg hst, Nat.lt_irrefl, if_false]

theorem trunc_fin (s : Bool) (k : Nat) (h) : CMath.trunc (fin s k h) = units s (k / one) := rfl

theorem trunc_int (n : Int) (h : Small n) : CMath.trunc ((n : Int) : F64) = n := by
  rw [int_eq n h]
  unfold intD
  rw [trunc_fin, Nat.mul_div_cancel _ F64.one_pos]
  by_cases h : n < 0
  · simp only [h, decide_true, units_true]; omega
  · simp only [h, decide_false, units_false]; omega

theorem zero_zero_add : F64.add (zero false) (zero false) = zero false := by
  unfold zero
  simp only [F64.add, if_true]
  exact round_rep _ _ ⟨F64.Rep.zero, limit_pos⟩ _ 1 Nat.one_pos rfl

theorem add_int' (a b : Int) (ha : Small a) (hb : Small b) (hs : Small (a + b)) :
    ((a : Int) : F64) + ((b : Int) : F64) = ((a + b : Int) : F64) := by
  by_cases h0 : a + b = 0
  · obtain rfl : b = -a := by omega
    rw [h0, int_zero]
    by_cases ha0 : a = 0
    · subst ha0
      rw [show (-0 : Int) = 0 from rfl, int_zero, add_raw]; exact zero_zero_add
    · rw [int_eq a ha, int_eq (-a) hb, add_raw]
      unfold intD
      have e : (-a).natAbs = a.natAbs := Int.natAbs_neg a
      have : ∀ (m : Nat) (hm : F64.Rep (m * one) ∧ m * one < limit), m = a.natAbs →
          F64.add (fin (decide (a < 0)) (a.natAbs * one) (small_ok ha)) (fin (decide (-a < 0)) (m * one) hm) = zero false := by
        rintro m hm rfl
        exact cancel _ _ _ _ _ (by
          intro h
          rw [decide_eq_decide] at h
          omega)
      exact this _ _ e
  · exact rounds_int (add_rounds (small_fin a ha) (small_fin b hb)) _ hs
      (by rw [small_val a ha, small_val b hb, Int.cast_add]) h0

theorem neg_int' (a : Int) (ha : Small a) (h0 : a ≠ 0) : -((a : Int) : F64) = ((-a : Int) : F64) := by
  have hs : Small (-a) := by unfold Small at *; omega
  obtain ⟨f, v⟩ := neg_fin (small_fin a ha)
  refine eq_of_val f (small_fin _ hs) ?_ ?_
  · rw [v, small_val a ha, small_val _ hs, Int.cast_neg]
  · rw [v, small_val a ha, neg_ne_zero]; exact_mod_cast h0

theorem sub_int' (a b : Int) (ha : Small a) (hb : Small b) (hs : Small (a - b)) :
    ((a : Int) : F64) - ((b : Int) : F64) = ((a - b : Int) : F64) := by
  by_cases hb0 : b = 0
  · subst hb0
    by_cases ha0 : a = 0
    · subst ha0
      rw [show (0 - 0 : Int) = 0 from rfl, int_zero, sub_raw]
      exact cancel false true 0 _ _ (by decide)
    · refine rounds_int (sub_rounds (small_fin a ha) (small_fin 0 hb)) _ hs ?_ (by omega)
      rw [small_val a ha, small_val 0 hb, Int.cast_sub]
  · have hs' : Small (-b) := by unfold Small at *; omega
    rw [sub_raw, ← neg_raw, neg_int' b hb hb0, ← add_raw, add_int' a (-b) ha hs' (by rwa [← sub_eq_add_neg]), ← sub_eq_add_neg]

theorem mul_int' (a b : Int) (ha : Small a) (hb : Small b) (hs : Small (a * b)) (h : 0 ≤ a ∧ 0 ≤ b ∨ a * b ≠ 0) :
    ((a : Int) : F64) * ((b : Int) : F64) = ((a * b : Int) : F64) := by
  by_cases h0 : a * b = 0
  · have h' : 0 ≤ a ∧ 0 ≤ b := by tauto
    rw [h0, int_zero, int_eq a ha, int_eq b hb]
    unfold intD
    have ea : decide (a < 0) = false := decide_eq_false (by omega)
    have eb : decide (b < 0) = false := decide_eq_false (by omega)
    show F64.round (decide (a < 0) != decide (b < 0)) (a.natAbs * one * (b.natAbs * one)) one = zero false
    rw [ea, eb]
    have : a.natAbs * one * (b.natAbs * one) = 0 := by
      rcases mul_eq_zero.1 h0 with h | h
      · rw [h]; simp
      · rw [h]; simp
    rw [this]
    exact round_zero false one F64.one_pos
  · exact rounds_int (mul_rounds (small_fin a ha) (small_fin b hb)) _ hs (by rw [small_val a ha, small_val b hb, Int.cast_mul]) h0

/-- Conversion of integers preserves the order as long as the larger one is a double. -/
theorem lt_int' (a b : Int) (ha : -9007199254740992 ≤ a) (hb : Small b) : ((a : Int) : F64) < ((b : Int) : F64) ↔ a < b := by
  by_cases hs : a ≤ 9007199254740992
  · rw [F64.lt_iff (small_fin a ⟨ha, hs⟩) (small_fin b hb), small_val a ⟨ha, hs⟩, small_val b hb]
    exact Int.cast_lt
  · have hle : b ≤ a := by unfold Small at hb; omega
    refine ⟨fun h => ?_, fun h => absurd h (by omega)⟩
    exfalso
    have := (intCast_rounds a).ge (small_fin b hb) (by rw [small_val b hb]; exact_mod_cast hle)
    exact not_lt_of_le' this h
where
  not_lt_of_le' {x y : F64} (h : x ≤ y) (h' : y < x) : False := by
    rw [F64.le_def] at h; rw [F64.lt_def] at h'
    cases x <;> cases y <;> simp [F64.le, F64.lt] at h h'
    · rename_i s t; cases s <;> cases t <;> simp at h h'
    · simp_all
    · simp_all
    · omega

theorem le_int' (a b : Int) (ha : Small a) (hb : Small b) : ((a : Int) : F64) ≤ ((b : Int) : F64) ↔ a ≤ b := by
  rw [F64.le_iff (small_fin a ha) (small_fin b hb), small_val a ha, small_val b hb]
  exact Int.cast_le

theorem one_small : Small 1 := by unfold Small; omega

theorem pos_of_trunc {s : Bool} {k : Nat} {h} (ht : 1 ≤ CMath.trunc (fin s k h)) : s = false ∧ one ≤ k := by
  rw [trunc_fin] at ht
  cases s
  · rw [units_false] at ht
    refine ⟨rfl, ?_⟩
    have : 1 ≤ k / one := by omega
    have := (Nat.le_div_iff_mul_le F64.one_pos).1 this
    omega
  · rw [units_true] at ht
    have := Int.natCast_nonneg (k / one)
    exfalso; linarith

theorem lt_one' (v : F64) (h : 1 ≤ CMath.trunc v) : ¬ v < ((1 : Int) : F64) := by
  rw [int_eq 1 one_small, F64.lt_def]
  cases v with
  | nan => simp [intD, F64.lt]
  | inf s =>
    cases s
    · simp [intD, F64.lt]
    · exfalso; rw [trunc_raw] at h; simp [F64.truncate] at h
  | fin s k hk =>
    obtain ⟨rfl, h1⟩ := pos_of_trunc h
    simp only [intD, F64.lt]
    rw [decide_eq_true_eq, show (decide ((1 : Int) < 0)) = false from rfl, units_false, units_false, show (1 : Int).natAbs = 1 from rfl]
    omega

/-- A double from 1 on, below `2^53`, keeps all its bits when 1 is subtracted. -/
theorem sub_one_rep {k : Nat} (h : F64.Rep k) (h1 : one ≤ k) (h2 : k < 2 ^ 53 * one) : F64.Rep (k - one) := by
  obtain ⟨m, e, rfl, hm⟩ := h
  by_cases he : e ≤ 1074
  · obtain ⟨g, hg⟩ : ∃ g, one = 2 ^ g * 2 ^ e := ⟨1074 - e, by unfold one; rw [← pow_add]; congr 1; omega⟩
    exact ⟨m - 2 ^ g, e, by rw [hg, Nat.sub_mul], lt_of_le_of_lt (Nat.sub_le _ _) hm⟩
  · obtain ⟨g, hg⟩ : ∃ g, 2 ^ e = 2 ^ g * one := ⟨e - 1074, by unfold one; rw [← pow_add]; congr 1; omega⟩
    have e1 : m * 2 ^ e = m * 2 ^ g * one := by rw [hg]; ring
    rw [e1] at h2 ⊢
    have : m * 2 ^ g < 2 ^ 53 := Nat.lt_of_mul_lt_mul_right h2
    refine (show F64.Rep ((m * 2 ^ g - 1) * one) from (F64.Rep.of_lt (by omega)).mul_one) |> fun h => ?_
    rwa [Nat.sub_mul, Nat.one_mul] at h

theorem trunc_sub_one' (v : F64) (h : 1 ≤ CMath.trunc v) (hb : CMath.trunc v ≤ 2147483647) :
    CMath.trunc (v - ((1 : Int) : F64)) = CMath.trunc v - 1 := by
  cases v with
  | nan => exfalso; rw [trunc_raw] at hb; simp [F64.truncate] at hb
  | inf s => exfalso; rw [trunc_raw] at hb h; cases s <;> simp [F64.truncate] at hb h
  | fin s k hk =>
    obtain ⟨rfl, h1⟩ := pos_of_trunc h
    rw [trunc_fin, units_false] at hb
    rw [trunc_fin, units_false, sub_raw, int_eq 1 one_small]
    have hk2 : k < 2 ^ 53 * one := by
      have : k / one < 2 ^ 53 := lt_of_le_of_lt (by omega : k / one ≤ 2147483647) (by norm_num)
      exact (Nat.div_lt_iff_lt_mul F64.one_pos).1 this
    have rp := sub_one_rep hk.1 h1 hk2
    have ok : F64.Rep (k - one) ∧ k - one < limit := ⟨rp, by omega⟩
    have e : F64.add (fin false k hk) (F64.neg (intD 1 one_small)) = fin false (k - one) ok := by
      show (if false = true then round false (k + (1 : Int).natAbs * one) 1 else
        if (1 : Int).natAbs * one < k then round false (k - (1 : Int).natAbs * one) 1 else
        if k < (1 : Int).natAbs * one then round true ((1 : Int).natAbs * one - k) 1 else zero false) = _
      rw [show (1 : Int).natAbs = 1 from rfl, Nat.one_mul, if_neg (by decide)]
      rcases Nat.lt_or_eq_of_le h1 with h | h
      · rw [if_pos h]; exact round_rep _ _ ok _ 1 Nat.one_pos (Nat.mul_one _).symm
      · rw [if_neg (by omega), if_neg (by omega)]
        unfold zero
        congr 1
        omega
    rw [e, trunc_fin, units_false]
    have : (k - one) / one = k / one - 1 := by
      have := Nat.sub_mul_div k one 1
      rwa [Nat.mul_one] at this
    have h2 : 1 ≤ k / one := (Nat.le_div_iff_mul_le F64.one_pos).2 (by omega)
    rw [this]
    omega

instance : IntExact F64 where
  trunc := trunc_int
  add := add_int'
  sub := sub_int'
  mul := mul_int'
  neg := neg_int'
  lt := lt_int'
  trunc_sub_one := trunc_sub_one'
  lt_one := lt_one'
  le := le_int'

end
end Verif
