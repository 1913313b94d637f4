/- Rounding facts about binary64: the result of an operation is bounded by every double that bounds the exact
result (helper lemmas). -/
import Verif.Spec.Binary64
import Mathlib.Algebra.Order.Ring.Rat
import Mathlib.Algebra.Field.Rat
import Mathlib.Data.Nat.Log
import Mathlib.Tactic.Linarith
import Mathlib.Tactic.Ring
import Mathlib.Tactic.Positivity
import Mathlib.Tactic.FieldSimp
import Mathlib.Tactic.NormNum

namespace Verif.F64
set_option linter.unusedSectionVars false
set_option linter.unusedSimpArgs false
set_option exponentiation.threshold 3000

theorem nearest_mono {n d n' d' : Nat} (hd : 0 < d) (hd' : 0 < d') (h : n * d' ≤ n' * d) :
    nearest n d ≤ nearest n' d' := by
  have e := Nat.div_add_mod n d
  have hm := Nat.mod_lt n hd
  have e' := Nat.div_add_mod n' d'
  have hm' := Nat.mod_lt n' hd'
  have hq : n / d ≤ n' / d' := by
    rw [Nat.le_div_iff_mul_le hd']
    have : n / d * d' * d ≤ n' * d := by
      calc n / d * d' * d = d * (n / d) * d' := by ring
        _ ≤ n * d' := Nat.mul_le_mul_right _ (by omega)
        _ ≤ n' * d := h
    exact Nat.le_of_mul_le_mul_right this hd
  rcases Nat.lt_or_eq_of_le hq with hlt | heq
  · calc nearest n d ≤ n / d + 1 := nearest_le hd (by rw [Nat.add_mul, Nat.mul_comm]; omega)
      _ ≤ n' / d' := hlt
      _ ≤ nearest n' d' := le_nearest hd' (Nat.div_mul_le_self _ _)
  · have hr : n % d * d' ≤ n' % d' * d := by
      have h1 : (d * (n / d) + n % d) * d' ≤ (d' * (n' / d') + n' % d') * d := by rw [e, e']; exact h
      rw [← heq] at h1
      have h2 : d * (n / d) * d' = d' * (n / d) * d := by ring
      rw [Nat.add_mul, Nat.add_mul, h2] at h1
      omega
    unfold nearest
    simp only [← heq]
    by_cases c1 : d < 2 * (n % d)
    · have : d' < 2 * (n' % d') := by
        by_contra hc
        have a1 : d * d' < 2 * (n % d) * d' := Nat.mul_lt_mul_of_pos_right c1 hd'
        have a2 : 2 * (n' % d') * d ≤ d' * d := Nat.mul_le_mul_right _ (by omega)
        have a3 : d * d' = d' * d := Nat.mul_comm _ _
        rw [Nat.mul_assoc] at a1 a2
        omega
      rw [if_pos c1, if_pos this]
    · by_cases c2 : 2 * (n % d) = d
      · have : d' ≤ 2 * (n' % d') := by
          by_contra hc
          have a1 : 2 * (n % d) * d' = d * d' := by rw [c2]
          have a2 : 2 * (n' % d') * d < d' * d := Nat.mul_lt_mul_of_pos_right (by omega) hd
          have a3 : d * d' = d' * d := Nat.mul_comm _ _
          rw [Nat.mul_assoc] at a1 a2
          omega
        rw [if_neg c1, if_pos c2]
        split
        · omega
        · split <;> omega
      · rw [if_neg c1, if_neg c2]
        split
        · omega
        · split <;> omega

theorem roundNat_mono {n d n' d' : Nat} (hd : 0 < d) (hd' : 0 < d') (h : n * d' ≤ n' * d) :
    roundNat n d ≤ roundNat n' d' := by
  have same : step n d = step n' d' → roundNat n d ≤ roundNat n' d' := by
    intro hs
    unfold roundNat
    rw [hs]
    refine Nat.mul_le_mul_right _ (nearest_mono (Nat.mul_pos hd (step_pos _ _)) (Nat.mul_pos hd' (step_pos _ _)) ?_)
    calc n * (d' * step n' d') = n * d' * step n' d' := by ring
      _ ≤ n' * d * step n' d' := Nat.mul_le_mul_right _ h
      _ = n' * (d * step n' d') := by ring
  have cross : ∀ k, n < k * d → k * d' ≤ n' → Rep k → roundNat n d ≤ roundNat n' d' := fun k h1 h2 hk =>
    (roundNat_le hd hk h1.le).trans (le_roundNat hd' hk h2)
  -- a larger quotient below a power of two bounds the smaller one
  have down : ∀ K, n' < K * d' → n < K * d := by
    intro K hK
    have : n * d' < K * d * d' := by
      calc n * d' ≤ n' * d := h
        _ < K * d' * d := Nat.mul_lt_mul_of_pos_right hK hd
        _ = K * d * d' := by ring
    exact lt_of_mul_lt_mul_right this (Nat.zero_le _)
  rcases step_cases n d hd with ⟨h1, h2⟩ | ⟨e, h1, h2, h3⟩ <;>
    rcases step_cases n' d' hd' with ⟨h1', h2'⟩ | ⟨e', h1', h2', h3'⟩
  · exact same (h1.trans h1'.symm)
  · refine cross (2 ^ 53) h2 (le_trans ?_ h2') (Rep.pow _)
    exact Nat.mul_le_mul_right _ (Nat.pow_le_pow_right (by norm_num) (by omega))
  · exfalso
    have a := down _ h2'
    have : 2 ^ 53 * d ≤ 2 ^ (e + 53) * d := Nat.mul_le_mul_right _ (Nat.pow_le_pow_right (by norm_num) (by omega))
    omega
  · rcases Nat.lt_trichotomy e e' with hlt | rfl | hgt
    · refine cross (2 ^ (e' + 53)) (lt_of_lt_of_le h3 ?_) h2' (Rep.pow _)
      exact Nat.mul_le_mul_right _ (Nat.pow_le_pow_right (by norm_num) (by omega))
    · exact same (h1.trans h1'.symm)
    · exfalso
      have a := down _ h3'
      have : 2 ^ (e' + 54) * d ≤ 2 ^ (e + 53) * d := Nat.mul_le_mul_right _ (Nat.pow_le_pow_right (by norm_num) (by omega))
      omega


theorem round_def (s : Bool) (n d : Nat) : round s n d =
    if h : roundNat n d < limit then fin s (roundNat n d) ⟨roundNat_rep' n d, h⟩ else inf s := rfl
theorem ofInt_def (i : Int) : ofInt i = round (decide (i < 0)) (i.natAbs * one) 1 := rfl

attribute [local irreducible] one limit

theorem oneQ_pos : (0 : Rat) < (one : Rat) := by exact_mod_cast one_pos

@[simp] theorem units_false (k : Nat) : units false k = (k : Int) := rfl
@[simp] theorem units_true (k : Nat) : units true k = -(k : Int) := rfl

section
variable [Libm]

theorem lt_def (a b : F64) : (a < b) = (F64.lt a b = true) := rfl
theorem le_def (a b : F64) : (a ≤ b) = (F64.le a b = true) := rfl
theorem beq_def (a b : F64) : (a == b) = (F64.le a b && F64.le b a) := rfl

theorem val_le_val (s t : Bool) (a b : Nat) (ha hb) : val (fin s a ha) ≤ val (fin t b hb) ↔ units s a ≤ units t b := by
  simp only [val]
  rw [div_le_div_iff_of_pos_right oneQ_pos]
  exact_mod_cast Iff.rfl

theorem val_lt_val (s t : Bool) (a b : Nat) (ha hb) : val (fin s a ha) < val (fin t b hb) ↔ units s a < units t b := by
  simp only [val]
  rw [div_lt_div_iff_of_pos_right oneQ_pos]
  exact_mod_cast Iff.rfl

theorem le_iff {a b : F64} (ha : IsFin a) (hb : IsFin b) : a ≤ b ↔ val a ≤ val b := by
  cases a <;> cases b <;> simp only [IsFin] at ha hb
  rw [val_le_val, le_def]; simp [F64.le]

theorem lt_iff {a b : F64} (ha : IsFin a) (hb : IsFin b) : a < b ↔ val a < val b := by
  cases a <;> cases b <;> simp only [IsFin] at ha hb
  rw [val_lt_val, lt_def]; simp [F64.lt]

theorem beq_iff {a b : F64} (ha : IsFin a) (hb : IsFin b) : (a == b) = true ↔ val a = val b := by
  rw [beq_def, Bool.and_eq_true]
  exact ⟨fun h => le_antisymm ((le_iff ha hb).1 h.1) ((le_iff hb ha).1 h.2),
    fun h => ⟨(le_iff ha hb).2 h.le, (le_iff hb ha).2 h.ge⟩⟩

/-- `r` is the exact number `q` rounded to a double. -/
def Rounds (q : Rat) (r : F64) : Prop :=
  ∃ (s : Bool) (n d : Nat), 0 < d ∧ r = round s n d ∧ q = (units s n : Rat) / ((d : Rat) * (one : Rat))

/-- Rounding is monotone. -/
theorem Rounds.mono {q q' : Rat} {r r' : F64} (h : Rounds q r) (h' : Rounds q' r') (hq : q ≤ q') : r ≤ r' := by
  obtain ⟨s, n, d, hd, rfl, rfl⟩ := h
  obtain ⟨s', n', d', hd', rfl, rfl⟩ := h'
  have hdq : (0 : Rat) < d := by exact_mod_cast hd
  have hdq' : (0 : Rat) < d' := by exact_mod_cast hd'
  rw [div_le_div_iff₀ (mul_pos hdq oneQ_pos) (mul_pos hdq' oneQ_pos), ← mul_assoc, ← mul_assoc,
    mul_le_mul_iff_left₀ oneQ_pos] at hq
  have hz : units s n * (d' : Int) ≤ units s' n' * (d : Int) := by exact_mod_cast hq
  have hdz : (0 : Int) < d := by exact_mod_cast hd
  have hdz' : (0 : Int) < d' := by exact_mod_cast hd'
  unfold round
  rw [le_def]
  cases s <;> cases s' <;> simp only [units_false, units_true] at hz
  · have h1 : n * d' ≤ n' * d := by exact_mod_cast hz
    have := roundNat_mono hd hd' h1
    split <;> split <;> simp only [F64.le, Bool.not_false, Bool.or_true, Bool.not_true, units_false]
    · exact decide_eq_true (by exact_mod_cast this)
    · omega
  · -- positive ≤ negative: both zero
    have h1 : (0 : Int) ≤ (n : Int) * d' := by positivity
    have h2 : (0 : Int) ≤ (n' : Int) * d := by positivity
    have h3 : (n : Int) * d' = 0 := by rw [Int.neg_mul] at hz; omega
    have h4 : (n' : Int) * d = 0 := by rw [Int.neg_mul] at hz; omega
    have n0 : n = 0 := by
      rcases mul_eq_zero.1 h3 with h | h
      · exact_mod_cast h
      · omega
    have n0' : n' = 0 := by
      rcases mul_eq_zero.1 h4 with h | h
      · exact_mod_cast h
      · omega
    subst n0 n0'
    have z1 := roundNat_exact hd Rep.zero (Nat.zero_mul d).symm
    have z2 := roundNat_exact hd' Rep.zero (Nat.zero_mul d').symm
    have lp := limit_pos
    rw [dif_pos (by rw [z1]; exact lp), dif_pos (by rw [z2]; exact lp)]
    simp only [F64.le, units_false, units_true, z1, z2]
    rfl
  · split <;> split <;> simp [F64.le]
  · have h1 : n' * d ≤ n * d' := by
      have : (n' : Int) * d ≤ (n : Int) * d' := by rw [Int.neg_mul, Int.neg_mul] at hz; omega
      exact_mod_cast this
    have := roundNat_mono hd' hd h1
    split <;> split <;> simp only [F64.le, Bool.true_or, Bool.not_true, units_true]
    · exact decide_eq_true (by omega)
    · omega

/-- A finite double rounds to itself. -/
theorem IsFin.rounds {K : F64} (hK : IsFin K) : Rounds (val K) K := by
  cases K with
  | fin s k h =>
    refine ⟨s, k, 1, one_pos', ?_, by simp [val]⟩
    have e := roundNat_exact (n := k) (d := 1) one_pos' h.1 (by simp)
    unfold round
    rw [dif_pos (by rw [e]; exact h.2)]
    congr 1
    exact e.symm
  | _ => exact absurd hK (by simp [IsFin])
where one_pos' : 0 < 1 := by norm_num

/-- The rounded result is at most every double that is at least the exact result. -/
theorem Rounds.le {q : Rat} {r K : F64} (h : Rounds q r) (hK : IsFin K) (hq : q ≤ val K) : r ≤ K := h.mono hK.rounds hq
theorem Rounds.ge {q : Rat} {r K : F64} (h : Rounds q r) (hK : IsFin K) (hq : val K ≤ q) : K ≤ r := hK.rounds.mono h hq

theorem fin_of_between {r A B : F64} (hA : IsFin A) (hB : IsFin B) (h1 : A ≤ r) (h2 : r ≤ B) : IsFin r := by
  rw [le_def] at h1 h2
  cases r with
  | nan => cases A <;> simp [F64.le, IsFin] at h1 hA
  | inf s => cases A <;> cases B <;> cases s <;> simp [F64.le, IsFin] at h1 h2 hA hB
  | fin s k h => trivial

/-- Between two finite doubles the rounded result is finite, and lies between them. -/
theorem Rounds.between {q : Rat} {r A B : F64} (h : Rounds q r) (hA : IsFin A) (hB : IsFin B) (h1 : val A ≤ q)
    (h2 : q ≤ val B) : IsFin r ∧ val A ≤ val r ∧ val r ≤ val B := by
  have a := h.ge hA h1
  have b := h.le hB h2
  have f := fin_of_between hA hB a b
  exact ⟨f, (le_iff hA f).1 a, (le_iff f hB).1 b⟩

/-- An exact result that is a double is returned as it is. -/
theorem Rounds.exact {q : Rat} {r K : F64} (h : Rounds q r) (hK : IsFin K) (hq : q = val K) : IsFin r ∧ val r = q := by
  obtain ⟨f, a, b⟩ := h.between hK hK hq.ge hq.le
  exact ⟨f, by rw [hq]; exact le_antisymm b a⟩

theorem Rounds.mono_val {q q' : Rat} {r r' : F64} (h : Rounds q r) (h' : Rounds q' r') (f : IsFin r) (f' : IsFin r')
    (hq : q ≤ q') : val r ≤ val r' := (le_iff f f').1 (h.mono h' hq)

/-! ### The operations -/

theorem round_zero (s : Bool) (d : Nat) (hd : 0 < d) : round s 0 d = zero s := by
  have e := roundNat_exact hd Rep.zero (Nat.zero_mul d).symm
  unfold round zero
  rw [dif_pos (by rw [e]; exact limit_pos)]
  congr 1

theorem add_rounds {a b : F64} (ha : IsFin a) (hb : IsFin b) : Rounds (val a + val b) (a + b) := by
  cases a with
  | fin s k hk =>
    cases b with
    | fin t l hl =>
      show Rounds _ (F64.add (fin s k hk) (fin t l hl))
      simp only [F64.add, val]
      rw [← add_div]
      by_cases h : s = t
      · subst h
        rw [if_pos rfl]
        exact ⟨s, k + l, 1, by norm_num, rfl, by cases s <;> simp <;> ring⟩
      · rw [if_neg h]
        have hc : ∀ a b : Nat, b < a → (((a - b : Nat) : Int) : Rat) = (a : Rat) - b := fun a b hab => by
          push_cast [Nat.cast_sub hab.le]; ring
        split
        · rename_i h1
          exact ⟨s, k - l, 1, by norm_num, rfl, by
            cases s <;> cases t <;> simp_all [Nat.cast_sub h1.le] <;> ring⟩
        · split
          · rename_i h1 h2
            exact ⟨t, l - k, 1, by norm_num, rfl, by
              cases s <;> cases t <;> simp_all [Nat.cast_sub h2.le] <;> ring⟩
          · have : k = l := by omega
            subst this
            refine ⟨false, 0, 1, by norm_num, ?_, by cases s <;> cases t <;> simp_all⟩
            exact (round_zero false 1 Nat.one_pos).symm
    | _ => exact absurd hb (by simp [IsFin])
  | _ => exact absurd ha (by simp [IsFin])

theorem neg_fin {a : F64} (ha : IsFin a) : IsFin (-a) ∧ val (-a) = -val a := by
  cases a with
  | fin s k hk =>
    refine ⟨ha, ?_⟩
    show val (fin (!s) k hk) = _
    cases s <;> simp [val, neg_div]
  | _ => exact absurd ha (by simp [IsFin])

theorem Rounds.neg {q : Rat} {r : F64} (h : Rounds q r) : Rounds (-q) (-r) := by
  obtain ⟨s, n, d, hd, rfl, rfl⟩ := h
  refine ⟨!s, n, d, hd, ?_, ?_⟩
  · show F64.neg (round s n d) = _
    unfold round
    split <;> rfl
  · rw [← neg_div]
    cases s <;> simp

theorem sub_rounds {a b : F64} (ha : IsFin a) (hb : IsFin b) : Rounds (val a - val b) (a - b) := by
  have := add_rounds ha (neg_fin hb).1
  rw [(neg_fin hb).2, ← sub_eq_add_neg] at this
  exact this

theorem mul_rounds {a b : F64} (ha : IsFin a) (hb : IsFin b) : Rounds (val a * val b) (a * b) := by
  cases a with
  | fin s k _ =>
    cases b with
    | fin t l _ =>
      refine ⟨s != t, k * l, one, one_pos, rfl, ?_⟩
      simp only [val]
      have := oneQ_pos.ne'
      generalize (one : Rat) = w at *
      cases s <;> cases t <;> simp <;> field_simp
    | _ => exact absurd hb (by simp [IsFin])
  | _ => exact absurd ha (by simp [IsFin])

theorem div_rounds {a b : F64} (ha : IsFin a) (hb : IsFin b) (h0 : val b ≠ 0) : Rounds (val a / val b) (a / b) := by
  cases a with
  | fin s k hk =>
    cases b with
    | fin t l hl' =>
      have hl : l ≠ 0 := by rintro rfl; apply h0; cases t <;> simp [val]
      show Rounds _ (F64.div (fin s k hk) (fin t l hl'))
      simp only [F64.div, if_neg hl]
      refine ⟨s != t, k * one, l, by omega, rfl, ?_⟩
      have h1 := oneQ_pos.ne'
      have hlq : (l : Rat) ≠ 0 := by exact_mod_cast hl
      have hu : ∀ b, ((units b (k * one) : Int) : Rat) = units b k * (one : Rat) := fun b => by
        cases b <;> simp only [units_false, units_true] <;> push_cast <;> ring
      rw [hu]
      simp only [val]
      clear h0 ha hb hu
      generalize (one : Rat) = w at *
      rw [mul_div_mul_right _ _ h1, div_div_div_cancel_right₀ h1]
      cases s <;> cases t <;> simp [neg_div, div_neg]
    | _ => exact absurd hb (by simp [IsFin])
  | _ => exact absurd ha (by simp [IsFin])

theorem units_int (i : Int) : ((units (decide (i < 0)) (i.natAbs * one) : Int) : Rat) = (i : Rat) * (one : Rat) := by
  have : units (decide (i < 0)) (i.natAbs * one) = i * (one : Int) := by
    by_cases h : i < 0
    · simp only [h, decide_true, units_true]
      rw [Nat.cast_mul, Int.ofNat_natAbs_of_nonpos h.le]; ring
    · simp only [h, decide_false, units_false]
      rw [Nat.cast_mul, Int.natAbs_of_nonneg (by omega)]
  rw [this, Int.cast_mul, Int.cast_natCast]

theorem intCast_ofInt : (instNumF64OfLibm.toIntCast).intCast = F64.ofInt := rfl
theorem intCast_gen (inst : IntCast F64) (f : Int → F64) (h : inst.intCast = f) (i : Int) : @Int.cast F64 inst i = f i := by
  subst h; rfl
theorem intCast_eq (i : Int) : ((i : Int) : F64) = F64.ofInt i := intCast_gen _ _ intCast_ofInt i

theorem intCast_rounds (i : Int) : Rounds (i : Rat) ((i : Int) : F64) := by
  have e : ((i : Int) : F64) = round (decide (i < 0)) (i.natAbs * one) 1 := by rw [intCast_eq, F64.ofInt]
  have hu : (i : Rat) = ((units (decide (i < 0)) (i.natAbs * one) : Int) : Rat) / (((1 : Nat) : Rat) * (one : Rat)) := by
    rw [units_int, Nat.cast_one, one_mul, mul_div_cancel_right₀ _ oneQ_pos.ne']
  exact ⟨_, _, 1, Nat.one_pos, e, hu⟩

/-- Integers up to `2^53` are doubles. -/
theorem intCast_fin (i : Int) (h : i.natAbs < 2 ^ 53) : IsFin ((i : Int) : F64) ∧ val ((i : Int) : F64) = i := by
  have hr : Rep (i.natAbs * one) := (Rep.of_lt h).mul_one
  have hl : i.natAbs * one < limit := by
    calc i.natAbs * one < 2 ^ 53 * one := Nat.mul_lt_mul_of_pos_right h one_pos
      _ ≤ limit := one_lt_limit
  refine (intCast_rounds i).exact (K := fin (decide (i < 0)) (i.natAbs * one) ⟨hr, hl⟩) trivial ?_
  simp only [val]
  rw [units_int, mul_div_cancel_right₀ _ oneQ_pos.ne']

end

end Verif.F64
