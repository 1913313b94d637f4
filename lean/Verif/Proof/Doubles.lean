/- Indicators in binary64: helper lemmas. -/
import Verif.Proof.Binary64
import Verif.Proof.ExtremumField
import Verif.Proof.Sum
import Mathlib.Algebra.Order.BigOperators.Group.Finset
import Mathlib.Algebra.Order.BigOperators.Ring.Finset
import Verif.Proof.Direction
import Verif.Proof.Window
import Verif.Core.RatInst

namespace Verif
open F64 Spec
set_option linter.unusedSectionVars false
set_option linter.unusedSimpArgs false
set_option exponentiation.threshold 3000

section
variable [Libm]

attribute [local irreducible] F64.ofInt F64.round F64.one F64.limit

/-! ### Constants -/

theorem int_fin (n : Int) (h : n.natAbs < 2 ^ 53) : IsFin ((n : Int) : F64) := (intCast_fin n h).1
theorem int_val (n : Int) (h : n.natAbs < 2 ^ 53) : val ((n : Int) : F64) = n := (intCast_fin n h).2

theorem zero_fin : IsFin (c! 0 : F64) := int_fin 0 (by norm_num)
theorem zero_val : val (c! 0 : F64) = 0 := by rw [int_val 0 (by norm_num)]; rfl
theorem one_fin : IsFin (c! 1 : F64) := int_fin 1 (by norm_num)
theorem one_val : val (c! 1 : F64) = 1 := by rw [int_val 1 (by norm_num)]; rfl
theorem hundred_fin : IsFin (c! 100 : F64) := int_fin 100 (by norm_num)
theorem hundred_val : val (c! 100 : F64) = 100 := by rw [int_val 100 (by norm_num)]; norm_num

/-- `2^1023`. -/
theorem big_ok : F64.Rep (2 ^ 1023 * one) ∧ 2 ^ 1023 * one < limit := by
  refine ⟨(Rep.pow 1023).mul_one, ?_⟩
  unfold one limit; rw [← pow_add]; exact Nat.pow_lt_pow_right (by norm_num) (by norm_num)
def big : F64 := fin false (2 ^ 1023 * one) big_ok
theorem big_fin : IsFin big := trivial
theorem big_val : val big = 2 ^ 1023 := by
  unfold big val
  simp only [units_false]
  rw [Nat.cast_mul, Int.cast_mul, Int.cast_natCast, Int.cast_natCast, mul_div_cancel_right₀ _ oneQ_pos.ne',
    Nat.cast_pow, Nat.cast_ofNat]

/-! ### Quotients and products in the unit interval -/

theorem ratio01 {a b : F64} (ha : IsFin a) (hb : IsFin b) (h0 : 0 ≤ val a) (h1 : val a ≤ val b) (hz : val b ≠ 0) :
    IsFin (a / b) ∧ 0 ≤ val (a / b) ∧ val (a / b) ≤ 1 := by
  have hp : 0 < val b := lt_of_le_of_ne (h0.trans h1) (Ne.symm hz)
  have := (div_rounds ha hb hz).between zero_fin one_fin (by rw [zero_val]; exact div_nonneg h0 hp.le)
    (by rw [one_val, div_le_one hp]; exact h1)
  rwa [zero_val, one_val] at this

theorem percent {u : F64} (hu : IsFin u) (h0 : 0 ≤ val u) (h1 : val u ≤ 1) :
    IsFin (c! 100 * u) ∧ 0 ≤ val (c! 100 * u) ∧ val (c! 100 * u) ≤ 100 := by
  have := (mul_rounds hundred_fin hu).between zero_fin hundred_fin
    (by rw [zero_val, hundred_val]; linarith) (by rw [hundred_val]; linarith)
  rwa [zero_val, hundred_val] at this

/-- The difference of two prices does not overflow. -/
theorem price_sub {a b : F64} (ha : Price a) (hb : Price b) (h : val b ≤ val a) : IsFin (a - b) ∧ 0 ≤ val (a - b) := by
  obtain ⟨fa, a1, a2⟩ := ha
  obtain ⟨fb, b1, b2⟩ := hb
  have e : (2 : Rat) ^ 1023 = 2 * 2 ^ 1022 := by rw [pow_succ]; ring
  have := (sub_rounds fa fb).between zero_fin big_fin (by rw [zero_val]; linarith)
    (by rw [big_val, e]; generalize (2 : Rat) ^ 1022 = w at *; linarith)
  rw [zero_val] at this
  exact ⟨this.1, this.2.1⟩

/-! ### Comparisons are exact: tracking an extremum of doubles is tracking the extremum of their values -/

theorem scanP_val {rep : F64 → F64 → Bool} {repQ : Rat → Rat → Bool}
    (hr : ∀ a b, IsFin a → IsFin b → rep a b = repQ (val a) (val b)) (f : Nat → F64) (hf : ∀ i, IsFin (f i)) (t n : Nat) :
    (scanP rep f t n).1 = (scanP repQ (fun i => val (f i)) t n).1 ∧
    val (scanP rep f t n).2 = (scanP repQ (fun i => val (f i)) t n).2 ∧ IsFin (scanP rep f t n).2 := by
  induction n with
  | zero => exact ⟨rfl, rfl, hf _⟩
  | succ n ih =>
    obtain ⟨h1, h2, h3⟩ := ih
    simp only [scanP]
    rw [hr _ _ (hf _) h3, h2]
    split
    · exact ⟨rfl, rfl, hf _⟩
    · exact ⟨h1, h2, h3⟩

theorem trk_val {rep : F64 → F64 → Bool} {repQ : Rat → Rat → Bool}
    (hr : ∀ a b, IsFin a → IsFin b → rep a b = repQ (val a) (val b)) (f : Nat → F64) (hf : ∀ i, IsFin (f i)) (m0 : F64)
    (hm : IsFin m0) (w i0 k : Nat) :
    (trk rep f m0 w i0 k).1 = (trk repQ (fun i => val (f i)) (val m0) w i0 k).1 ∧
    val (trk rep f m0 w i0 k).2 = (trk repQ (fun i => val (f i)) (val m0) w i0 k).2 ∧ IsFin (trk rep f m0 w i0 k).2 := by
  induction k with
  | zero => exact ⟨rfl, rfl, hm⟩
  | succ k ih =>
    obtain ⟨h1, h2, h3⟩ := ih
    simp only [trk, trackP]
    rw [← h1]
    split
    · exact scanP_val hr f hf _ _
    · rw [hr _ _ (hf _) h3, h2]
      split
      · exact ⟨rfl, rfl, hf _⟩
      · exact ⟨h1, h2, h3⟩

theorem repMax_val (a b : F64) (ha : IsFin a) (hb : IsFin b) : repMax a b = repMax (val a) (val b) := by
  unfold repMax
  exact decide_eq_decide.2 (le_iff hb ha)
theorem repMin_val (a b : F64) (ha : IsFin a) (hb : IsFin b) : repMin a b = repMin (val a) (val b) := by
  unfold repMin
  exact decide_eq_decide.2 (le_iff ha hb)

theorem trk_max_val (f : Nat → F64) (hf : ∀ i, IsFin (f i)) (p i0 k : Nat) (hp : 1 ≤ p) (h : p - 1 ≤ i0 + k) :
    IsFin (trk repMax f (f 0) (p - 1) i0 (k + 1)).2 ∧
    val (trk repMax f (f 0) (p - 1) i0 (k + 1)).2 = winMax p (fun i => val (f i)) (i0 + k - (p - 1)) := by
  obtain ⟨_, h2, h3⟩ := trk_val repMax_val f hf (f 0) (hf 0) (p - 1) i0 (k + 1)
  exact ⟨h3, by rw [h2, trk_max _ _ _ _ _ hp h]⟩
theorem trk_min_val (f : Nat → F64) (hf : ∀ i, IsFin (f i)) (p i0 k : Nat) (hp : 1 ≤ p) (h : p - 1 ≤ i0 + k) :
    IsFin (trk repMin f (f 0) (p - 1) i0 (k + 1)).2 ∧
    val (trk repMin f (f 0) (p - 1) i0 (k + 1)).2 = winMin p (fun i => val (f i)) (i0 + k - (p - 1)) := by
  obtain ⟨_, h2, h3⟩ := trk_val repMin_val f hf (f 0) (hf 0) (p - 1) i0 (k + 1)
  exact ⟨h3, by rw [h2, trk_min _ _ _ _ _ hp h]⟩

/-! ### Numbers that are not negative -/

/-- Zero or more: a finite double of value at least 0, `+∞`, or NaN. -/
def NN (x : F64) : Prop := x = nan ∨ x = inf false ∨ (IsFin x ∧ 0 ≤ val x)

theorem NN.nan : NN .nan := Or.inl rfl
theorem NN.inf : NN (.inf false) := Or.inr (Or.inl rfl)
theorem NN.fin {x : F64} (h : IsFin x) (h0 : 0 ≤ val x) : NN x := Or.inr (Or.inr ⟨h, h0⟩)

theorem not_lt_zero {x : F64} (h : NN x) : ¬ x < c! 0 := by
  rcases h with rfl | rfl | ⟨hf, h0⟩
  · have := zero_fin
    rw [F64.lt_def]; cases h : (c! 0 : F64) <;> simp [F64.lt]
  · have := zero_fin
    rw [F64.lt_def]; cases h : (c! 0 : F64) <;> simp [F64.lt]
  · rw [F64.lt_iff hf zero_fin, zero_val]; linarith

theorem dbl_cases (r : F64) : r = .nan ∨ r = .inf false ∨ r = .inf true ∨ IsFin r := by
  cases r with
  | nan => simp
  | inf s => cases s <;> simp
  | fin s k h => exact Or.inr (Or.inr (Or.inr trivial))

theorem Rounds.nn {q : Rat} {r : F64} (h : F64.Rounds q r) (h0 : 0 ≤ q) : NN r := by
  have a := h.ge zero_fin (by rw [zero_val]; exact h0)
  rcases dbl_cases r with rfl | rfl | rfl | hf
  · exact NN.nan
  · exact NN.inf
  · exfalso
    have z := zero_fin
    rw [F64.le_def] at a; revert a z; cases h : (c! 0 : F64) <;> simp [F64.le, F64.IsFin]
  · exact NN.fin hf (by have := (F64.le_iff zero_fin hf).1 a; rwa [zero_val] at this)

/-- A rounded result that does not compare below zero is not negative. -/
theorem Rounds.nn_of_not_lt {q : Rat} {r : F64} (h : F64.Rounds q r) (h0 : ¬ r < c! 0) : NN r := by
  rcases dbl_cases r with rfl | rfl | rfl | hf
  · exact NN.nan
  · exact NN.inf
  · exfalso
    apply h0
    have z := zero_fin
    rw [F64.lt_def]; revert z; cases h : (c! 0 : F64) <;> simp [F64.lt, F64.IsFin]
  · refine NN.fin hf ?_
    rw [F64.lt_iff hf zero_fin, zero_val] at h0
    exact not_lt.1 h0

theorem add_def (a b : F64) : a + b = F64.add a b := rfl
theorem sub_def (a b : F64) : a - b = F64.add a (F64.neg b) := rfl
theorem mul_def (a b : F64) : a * b = F64.mul a b := rfl
theorem div_def (a b : F64) : a / b = F64.div a b := rfl
theorem neg_def (a : F64) : -a = F64.neg a := rfl
theorem fabs_def (a : F64) : CMath.fabs a = F64.abs a := rfl

@[simp] theorem nan_add (b : F64) : (.nan : F64) + b = .nan := by rw [add_def]; cases b <;> rfl
@[simp] theorem add_nan (a : F64) : a + (.nan : F64) = .nan := by rw [add_def]; cases a <;> rfl
@[simp] theorem nan_sub (b : F64) : (.nan : F64) - b = .nan := by rw [sub_def]; cases b <;> rfl
@[simp] theorem sub_nan (a : F64) : a - (.nan : F64) = .nan := by rw [sub_def]; cases a <;> rfl
@[simp] theorem nan_mul (b : F64) : (.nan : F64) * b = .nan := by rw [mul_def]; cases b <;> rfl
@[simp] theorem mul_nan (a : F64) : a * (.nan : F64) = .nan := by rw [mul_def]; cases a <;> rfl
@[simp] theorem nan_div (b : F64) : (.nan : F64) / b = .nan := by rw [div_def]; cases b <;> rfl
@[simp] theorem div_nan (a : F64) : a / (.nan : F64) = .nan := by rw [div_def]; cases a <;> rfl

theorem inf_add_fin {b : F64} (s : Bool) (h : IsFin b) : (.inf s : F64) + b = .inf s := by
  rw [add_def]; cases b <;> first | rfl | exact absurd h (by simp [F64.IsFin])
theorem fin_add_inf {a : F64} (s : Bool) (h : IsFin a) : a + (.inf s : F64) = .inf s := by
  rw [add_def]; cases a <;> first | rfl | exact absurd h (by simp [F64.IsFin])
theorem inf_sub_fin {b : F64} (s : Bool) (h : IsFin b) : (.inf s : F64) - b = .inf s := by
  rw [sub_def]; cases b <;> first | rfl | exact absurd h (by simp [F64.IsFin])
theorem fin_sub_inf {a : F64} (s : Bool) (h : IsFin a) : a - (.inf s : F64) = .inf (!s) := by
  rw [sub_def]; cases a <;> first | rfl | exact absurd h (by simp [F64.IsFin])
theorem inf_add_inf (s : Bool) : (.inf s : F64) + (.inf s : F64) = .inf s := by
  rw [add_def]; cases s <;> rfl
theorem inf_sub_inf (s : Bool) : (.inf s : F64) - (.inf s : F64) = .nan := by
  rw [sub_def]; cases s <;> rfl
theorem fin_div_inf {a : F64} (s : Bool) (h : IsFin a) : IsFin (a / (.inf s : F64)) ∧ val (a / (.inf s : F64)) = 0 := by
  rw [div_def]
  cases a with
  | fin t k _ => exact ⟨trivial, by cases t <;> cases s <;> simp [F64.div, F64.val, F64.zero]⟩
  | _ => exact absurd h (by simp [F64.IsFin])
theorem inf_div_inf (s t : Bool) : (.inf s : F64) / (.inf t : F64) = .nan := rfl

/-- A positive finite double leaves an infinity unchanged. -/
theorem inf_mul_pos {b : F64} (s : Bool) (h : IsFin b) (h0 : 0 < val b) : (.inf s : F64) * b = .inf s := by
  rw [mul_def]
  cases b with
  | fin t k hk0 =>
    have hk : k ≠ 0 := by rintro rfl; cases t <;> simp [F64.val] at h0
    have ht : t = false := by
      cases t with
      | false => rfl
      | true =>
        exfalso
        have : F64.val (.fin true k hk0) ≤ 0 := by
          simp only [F64.val, F64.units_true]
          push_cast
          exact div_nonpos_of_nonpos_of_nonneg (by simp) F64.oneQ_pos.le
        linarith
    subst ht
    cases s <;> simp [F64.mul, hk]
  | _ => exact absurd h (by simp [F64.IsFin])

theorem NN.add {a b : F64} (ha : NN a) (hb : NN b) : NN (a + b) := by
  rcases ha with rfl | rfl | ⟨fa, a0⟩ <;> rcases hb with rfl | rfl | ⟨fb, b0⟩
  all_goals try (simp; exact NN.nan)
  · rw [inf_add_inf]; exact NN.inf
  · rw [inf_add_fin _ fb]; exact NN.inf
  · rw [fin_add_inf _ fa]; exact NN.inf
  · exact Rounds.nn (F64.add_rounds fa fb) (add_nonneg a0 b0)

theorem NN.mul_pos {a b : F64} (ha : NN a) (hb : IsFin b) (b0 : 0 < val b) : NN (a * b) := by
  rcases ha with rfl | rfl | ⟨fa, a0⟩
  · rw [nan_mul]; exact NN.nan
  · rw [inf_mul_pos _ hb b0]; exact NN.inf
  · exact Rounds.nn (F64.mul_rounds fa hb) (mul_nonneg a0 b0.le)

theorem NN.mul_fin {a b : F64} (ha : NN a) (hb : IsFin b) (b0 : 0 ≤ val b) : NN (a * b) := by
  rcases lt_or_eq_of_le b0 with h | h
  · exact ha.mul_pos hb h
  · rcases ha with rfl | rfl | ⟨fa, a0⟩
    · rw [nan_mul]; exact NN.nan
    · rw [mul_def]
      cases b with
      | fin t k hk0 =>
        have hk : k = 0 := by
          by_contra hk
          have hk' : (k : Rat) ≠ 0 := by exact_mod_cast hk
          have := div_ne_zero hk' F64.oneQ_pos.ne'
          cases t
          · exact this (by simpa [F64.val] using h.symm)
          · exact this (by simpa [F64.val, neg_div] using h.symm)
        subst hk
        simp [F64.mul]; exact NN.nan
      | _ => exact absurd hb (by simp [F64.IsFin])
    · exact Rounds.nn (F64.mul_rounds fa hb) (mul_nonneg a0 b0)

theorem NN.div_pos {a b : F64} (ha : NN a) (hb : IsFin b) (b0 : 0 < val b) : NN (a / b) := by
  rcases ha with rfl | rfl | ⟨fa, a0⟩
  · rw [nan_div]; exact NN.nan
  · rw [div_def]
    cases b with
    | fin t k hk0 =>
      cases t with
      | false => exact NN.inf
      | true =>
        exfalso
        have : F64.val (.fin true k hk0) ≤ 0 := by
          simp only [F64.val, F64.units_true]
          push_cast
          exact div_nonpos_of_nonpos_of_nonneg (by simp) F64.oneQ_pos.le
        linarith
    | _ => exact absurd hb (by simp [F64.IsFin])
  · exact Rounds.nn (F64.div_rounds fa hb b0.ne') (div_nonneg a0 b0.le)

/-- Wilder's smoothing `(x - w) * per + w` of non-negative numbers stays non-negative. -/
theorem NN.smooth {x w per : F64} (hx : NN x) (hw : NN w) (hp : IsFin per) (p0 : 0 < val per) (p1 : val per ≤ 1) :
    NN ((x - w) * per + w) := by
  rcases hx with rfl | rfl | ⟨fx, x0⟩ <;> rcases hw with rfl | rfl | ⟨fw, w0⟩
  all_goals try (simp; exact NN.nan)
  · rw [inf_sub_inf]; simp; exact NN.nan
  · rw [inf_sub_fin _ fw, inf_mul_pos _ hp p0, inf_add_fin _ fw]; exact NN.inf
  · rw [fin_sub_inf _ fx, inf_mul_pos _ hp p0]; exact Or.inl rfl
  · obtain ⟨fn, vn⟩ := F64.neg_fin fw
    obtain ⟨ft, t1, t2⟩ := (F64.sub_rounds fx fw).between fn fx (by rw [vn]; linarith) (by linarith)
    rw [vn] at t1
    obtain ⟨fu, u1, u2⟩ := (F64.mul_rounds ft hp).between fn fx (by
        rw [vn]
        rcases le_or_gt 0 (val (x - w)) with h | h
        · nlinarith
        · nlinarith) (by
        rcases le_or_gt 0 (val (x - w)) with h | h
        · nlinarith
        · nlinarith)
    rw [vn] at u1
    exact Rounds.nn (F64.add_rounds fu fw) (by linarith)

theorem fabs_fin {a : F64} (h : IsFin a) : IsFin (CMath.fabs a) ∧ val (CMath.fabs a) = |val a| := by
  rw [fabs_def]
  cases a with
  | fin t k hk0 =>
    refine ⟨h, ?_⟩
    have := div_nonneg (Nat.cast_nonneg (α := Rat) k) F64.oneQ_pos.le
    cases t
    · simp only [F64.abs, F64.val, F64.units_false, Int.cast_natCast]; rw [abs_of_nonneg this]
    · simp only [F64.abs, F64.val, F64.units_true, F64.units_false, Int.cast_natCast]
      push_cast
      rw [neg_div, abs_neg, abs_of_nonneg this]
  | _ => exact absurd h (by simp [F64.IsFin])

theorem NN.fabs {q : Rat} {r : F64} (h : F64.Rounds q r) : NN (CMath.fabs r) := by
  rcases dbl_cases r with rfl | rfl | rfl | hf
  · exact NN.nan
  · exact NN.inf
  · exact NN.inf
  · exact NN.fin (fabs_fin hf).1 (by rw [(fabs_fin hf).2]; exact abs_nonneg _)

theorem within_iff {a b y : F64} : Within a b y ↔ ¬ y < a ∧ ¬ b < y := by
  unfold Within; rw [F64.lt_def, F64.lt_def, Bool.not_eq_true, Bool.not_eq_true]

theorem within_fin {a b y : F64} (ha : IsFin a) (hb : IsFin b) (hy : IsFin y) (h1 : val a ≤ val y) (h2 : val y ≤ val b) :
    Within a b y := by
  rw [within_iff, F64.lt_iff hy ha, F64.lt_iff hb hy]
  exact ⟨not_lt.2 h1, not_lt.2 h2⟩

theorem within_nan (a b : F64) : Within a b .nan := by
  constructor
  · cases a <;> rfl
  · cases b <;> rfl

/-- The share of `a` in a total that is at least `a` and rounds `q`, in percent. -/
theorem share_within {a s : F64} (fa : IsFin a) (a0 : 0 ≤ val a) (hs : NN s) (h : IsFin s → val a ≤ val s ∧ val s ≠ 0) :
    s = .nan ∨ (IsFin (a / s) ∧ 0 ≤ val (a / s) ∧ val (a / s) ≤ 1) := by
  rcases hs with rfl | rfl | ⟨fs, s0⟩
  · exact Or.inl rfl
  · obtain ⟨f, v⟩ := fin_div_inf false fa
    exact Or.inr ⟨f, by rw [v], by rw [v]; norm_num⟩
  · exact Or.inr (ratio01 fa fs a0 (h fs).1 (h fs).2)

theorem percent' {u : F64} (hu : IsFin u) (h0 : 0 ≤ val u) (h1 : val u ≤ 1) :
    IsFin (u * c! 100) ∧ 0 ≤ val (u * c! 100) ∧ val (u * c! 100) ≤ 100 := by
  have := (F64.mul_rounds hu hundred_fin).between zero_fin hundred_fin
    (by rw [zero_val, hundred_val]; linarith) (by rw [hundred_val]; linarith)
  rwa [zero_val, hundred_val] at this

theorem pct_within {y : F64} (h : IsFin y ∧ 0 ≤ val y ∧ val y ≤ 100) : Within (c! 0) (c! 100) y :=
  within_fin zero_fin hundred_fin h.1 (by rw [zero_val]; exact h.2.1) (by rw [hundred_val]; exact h.2.2)

theorem beq_zero {a : F64} (h : IsFin a) : (a == c! 0) = true ↔ val a = 0 := by
  rw [F64.beq_iff h zero_fin, zero_val]

theorem rsiOut_within {up down : F64} (hu : NN up) (hd : NN down) : Within (c! 0) (c! 100) (rsiOut up down) := by
  unfold rsiOut
  split
  · exact pct_within ⟨zero_fin, by rw [zero_val], by rw [zero_val]; norm_num⟩
  rename_i hz
  rcases hu with rfl | rfl | ⟨fu, u0⟩
  · simp; exact within_nan _ _
  · rcases hd with rfl | rfl | ⟨fd, d0⟩
    · simp; exact within_nan _ _
    · rw [inf_add_inf, inf_div_inf, mul_nan]; exact within_nan _ _
    · rw [inf_add_fin _ fd, inf_div_inf, mul_nan]; exact within_nan _ _
  · rw [beq_zero fu] at hz
    rcases share_within fu u0 ((NN.fin fu u0).add hd) (fun fs => by
      rcases hd with rfl | rfl | ⟨fd, d0⟩
      · simp [F64.IsFin] at fs
      · rw [fin_add_inf _ fu] at fs; simp [F64.IsFin] at fs
      · have h1 : val up ≤ val (up + down) :=
          (F64.le_iff fu fs).1 ((F64.add_rounds fu fd).ge fu (by linarith))
        exact ⟨h1, fun h => hz (le_antisymm (by linarith) u0)⟩) with h | ⟨f, a, b⟩
    · rw [h]; simp; exact within_nan _ _
    · exact pct_within (percent f a b)


theorem calcDirection_nn {a b : F64} {q r : Rat} (ha : F64.Rounds q a) (hb : F64.Rounds r b) :
    NN (calcDirection a b).1 ∧ NN (calcDirection a b).2 := by
  have z : NN (c! 0 : F64) := NN.fin zero_fin (by rw [zero_val])
  have key : ∀ s : F64 × F64, NN s.1 → (NN s.2 ∨ F64.Rounds r s.2) →
      NN (if s.2 < c! 0 then (s.1, c! 0) else if s.1 < s.2 then (c! 0, s.2) else s).1 ∧
      NN (if s.2 < c! 0 then (s.1, c! 0) else if s.1 < s.2 then (c! 0, s.2) else s).2 := by
    intro s h1 h2
    split
    · exact ⟨h1, z⟩
    · rename_i hn
      have h3 : NN s.2 := h2.elim id fun h => Rounds.nn_of_not_lt h hn
      split
      · exact ⟨z, h3⟩
      · exact ⟨h1, h3⟩
  unfold calcDirection
  simp only
  apply key
  · split
    · exact z
    · rename_i hn
      have := Rounds.nn_of_not_lt ha hn
      split <;> exact this
  · split
    · exact Or.inr hb
    · split
      · exact Or.inl z
      · exact Or.inr hb

theorem dirSig_nn (x : Nat → HL F64) (hx : ∀ i, IsFin (x i).high ∧ IsFin (x i).low) (k : Nat) :
    NN (dirUp x k) ∧ NN (dirDown x k) :=
  calcDirection_nn (F64.sub_rounds (hx _).1 (hx _).1) (F64.sub_rounds (hx _).2 (hx _).2)

theorem zero_nn : NN (c! 0 : F64) := NN.fin zero_fin (by rw [zero_val])

theorem sumTo_nn (d : Nat → F64) (hd : ∀ k, NN (d k)) (n : Nat) : NN (sumTo d n) := by
  induction n with
  | zero => exact zero_nn
  | succ n ih => exact ih.add (hd n)

/-- A period is a small positive integer. -/
theorem period_fin {p : Nat} (hp : 1 ≤ p) (hb : p < 2 ^ 31) :
    IsFin (((p : Int) : F64)) ∧ val ((p : Int) : F64) = p ∧ (0 : Rat) < p := by
  have h : ((p : Int)).natAbs < 2 ^ 53 := by
    rw [Int.natAbs_natCast]; exact hb.trans (Nat.pow_lt_pow_right (by norm_num) (by norm_num))
  exact ⟨int_fin _ h, by rw [int_val _ h]; simp, by exact_mod_cast hp⟩

theorem wildersPer {p : Nat} (hp : 1 ≤ p) (hb : p < 2 ^ 31) :
    IsFin (c! 1 / ((p : Int) : F64)) ∧ 0 < val (c! 1 / ((p : Int) : F64)) ∧ val (c! 1 / ((p : Int) : F64)) ≤ 1 := by
  obtain ⟨f, v, h0⟩ := period_fin hp hb
  have h1 : (1 : Rat) ≤ p := by exact_mod_cast hp
  have h2 : (p : Rat) ≤ 2 ^ 31 := by exact_mod_cast hb.le
  have r := F64.div_rounds one_fin f (by rw [v]; exact h0.ne')
  rw [one_val, v] at r
  have ok : F64.Rep (2 ^ 1043) ∧ 2 ^ 1043 < limit := by
    refine ⟨Rep.pow _, ?_⟩
    unfold limit; exact Nat.pow_lt_pow_right (by norm_num) (by norm_num)
  have hs : IsFin (fin false (2 ^ 1043) ok) := trivial
  have hv : val (fin false (2 ^ 1043) ok) = 1 / 2 ^ 31 := by
    show ((units false (2 ^ 1043) : Int) : Rat) / (one : Rat) = _
    rw [units_false]
    unfold one
    rw [Int.cast_natCast, Nat.cast_pow, Nat.cast_pow, Nat.cast_ofNat, show (1074 : Nat) = 1043 + 31 from rfl, pow_add]
    have : (2 : Rat) ^ 1043 ≠ 0 := by positivity
    rw [div_eq_div_iff (by positivity) (by positivity)]; ring
  obtain ⟨g, a, b⟩ := r.between hs one_fin (by
      rw [hv]; exact one_div_le_one_div_of_le h0 h2)
    (by rw [one_val, div_le_one h0]; exact h1)
  rw [hv] at a
  rw [one_val] at b
  exact ⟨g, lt_of_lt_of_le (by positivity) a, b⟩

theorem dmPer_def {R : Type} [Num R] (p : Int) : (dmPer p : R) = ((p : R) - c! 1) / (p : R) := rfl

theorem dmPer_fin {p : Nat} (hp : 1 ≤ p) (hb : p < 2 ^ 31) :
    IsFin (dmPer (p : Int) : F64) ∧ 0 ≤ val (dmPer (p : Int) : F64) ∧ val (dmPer (p : Int) : F64) ≤ 1 := by
  obtain ⟨f, v, h0⟩ := period_fin hp hb
  obtain ⟨q, rfl⟩ : ∃ q, p = q + 1 := ⟨p - 1, by omega⟩
  have hq : ((q : Int)).natAbs < 2 ^ 53 := by
    rw [Int.natAbs_natCast]
    exact (lt_of_lt_of_le (Nat.lt_succ_self q) hb.le).trans (Nat.pow_lt_pow_right (by norm_num) (by norm_num))
  have fq := int_fin _ hq
  have vq := int_val _ hq
  have r := F64.sub_rounds f one_fin
  have h1 : (0 : Rat) ≤ q := Nat.cast_nonneg q
  have e1 : val ((((q + 1 : Nat) : Int)) : F64) - val (c! 1 : F64) = val (((q : Int)) : F64) := by
    rw [v, one_val, vq, Nat.cast_add, Nat.cast_one, Int.cast_natCast]; ring
  obtain ⟨g, e⟩ := r.exact fq e1
  rw [e1, vq, Int.cast_natCast] at e
  have e2 : val ((((q + 1 : Nat) : Int) : F64) - c! 1) ≤ val (((q + 1 : Nat) : Int) : F64) := by
    rw [e, v, Nat.cast_add, Nat.cast_one]; linarith
  have key := ratio01 g f (by rw [e]; exact h1) e2 (by rw [v]; exact h0.ne')
  rw [dmPer_def]
  exact key

theorem wSum_zero {R : Type} [Num R] (p : Nat) (d : Nat → R) : wSum p d 0 = sumTo d (p - 1) := rfl
theorem wSum_succ {R : Type} [Num R] (p : Nat) (d : Nat → R) (j : Nat) :
    wSum p d (j + 1) = wSum p d j * dmPer (p : Int) + d (j + (p - 1)) := rfl
theorem wildersRec_zero {R : Type} [Num R] (p : Nat) (x : Nat → R) : wildersRec p x 0 = sumTo x p / ((p : Int) : R) := rfl
theorem wildersRec_succ {R : Type} [Num R] (p : Nat) (x : Nat → R) (j : Nat) :
    wildersRec p x (j + 1) = (x (j + p) - wildersRec p x j) * (c! 1 / ((p : Int) : R)) + wildersRec p x j := rfl

theorem wSum_nn (p : Nat) (hp : 1 ≤ p) (hb : p < 2 ^ 31) (d : Nat → F64) (hd : ∀ k, NN (d k)) (j : Nat) : NN (wSum p d j) := by
  obtain ⟨f, a, _⟩ := dmPer_fin hp hb
  induction j with
  | zero => rw [wSum_zero]; exact sumTo_nn d hd _
  | succ j ih => rw [wSum_succ]; exact (ih.mul_fin f a).add (hd _)

theorem wildersRec_nn (p : Nat) (hp : 1 ≤ p) (hb : p < 2 ^ 31) (x : Nat → F64) (hx : ∀ k, NN (x k)) (j : Nat) :
    NN (wildersRec p x j) := by
  obtain ⟨f, a, b⟩ := wildersPer hp hb
  obtain ⟨g, v, h0⟩ := period_fin hp hb
  induction j with
  | zero => rw [wildersRec_zero]; exact (sumTo_nn x hx p).div_pos g (by rw [v]; exact h0)
  | succ j ih => rw [wildersRec_succ]; exact (hx _).smooth ih f a b

theorem upSig_nn (x : Nat → F64) (hx : ∀ i, IsFin (x i)) (k : Nat) : NN (upSig x k) := by
  unfold upSig upward
  split
  · rename_i h
    exact Rounds.nn (F64.sub_rounds (hx _) (hx _)) (by have := (F64.lt_iff (hx _) (hx _)).1 h; linarith)
  · exact NN.fin zero_fin (by rw [zero_val])
theorem downSig_nn (x : Nat → F64) (hx : ∀ i, IsFin (x i)) (k : Nat) : NN (downSig x k) := by
  unfold downSig downward
  split
  · rename_i h
    exact Rounds.nn (F64.sub_rounds (hx _) (hx _)) (by have := (F64.lt_iff (hx _) (hx _)).1 h; linarith)
  · exact NN.fin zero_fin (by rw [zero_val])

theorem trueRange_nn {h l c : F64} (fh : IsFin h) (fl : IsFin l) (fc : IsFin c) (hl : val l ≤ val h) : NN (Verif.trueRange h l c) := by
  unfold Verif.trueRange
  simp only
  have h0 := Rounds.nn (F64.sub_rounds fh fl) (by linarith)
  have h1 := NN.fabs (F64.sub_rounds fh fc)
  have h2 := NN.fabs (F64.sub_rounds fl fc)
  repeat' split
  all_goals assumption

theorem trSig_nn (x : Nat → HLC F64) (hx : ∀ i, IsFin (x i).high ∧ IsFin (x i).low ∧ IsFin (x i).close ∧ (x i).low ≤ (x i).high) (k : Nat) :
    NN (trSig x k) := by
  have hl := fun i => (F64.le_iff (hx i).2.1 (hx i).1).1 (hx i).2.2.2
  cases k with
  | zero => exact Rounds.nn (F64.sub_rounds (hx 0).1 (hx 0).2.1) (by have := hl 0; linarith)
  | succ k => exact trueRange_nn (hx _).1 (hx _).2.1 (hx _).2.2.1 (hl _)

theorem dxOut_within {up down : F64} (hu : NN up) (hd : NN down) : Within (c! 0) (c! 100) (dxOut up down) := by
  unfold dxOut
  simp only
  split
  · exact pct_within ⟨zero_fin, by rw [zero_val], by rw [zero_val]; norm_num⟩
  rename_i hz
  have nn : ∀ w : F64, Within (c! 0) (c! 100) (w / .nan * c! 100) := fun w => by rw [div_nan, nan_mul]; exact within_nan _ _
  have nn' : ∀ w : F64, Within (c! 0) (c! 100) (.nan / w * c! 100) := fun w => by rw [nan_div, nan_mul]; exact within_nan _ _
  have fi : (CMath.fabs (.inf false : F64)) = .inf false := rfl
  have fi' : (CMath.fabs (.inf true : F64)) = .inf false := rfl
  have fn : (CMath.fabs (.nan : F64)) = .nan := rfl
  rcases hu with rfl | rfl | ⟨fu, u0⟩
  · rw [nan_add]; exact nn _
  · rcases hd with rfl | rfl | ⟨fd, d0⟩
    · rw [add_nan]; exact nn _
    · rw [inf_sub_inf, fn]; exact nn' _
    · rw [inf_sub_fin _ fd, inf_add_fin _ fd, fi, inf_div_inf, nan_mul]; exact within_nan _ _
  · rcases hd with rfl | rfl | ⟨fd, d0⟩
    · rw [add_nan]; exact nn _
    · rw [fin_sub_inf _ fu, fin_add_inf _ fu, show (!false) = true from rfl, fi', inf_div_inf, nan_mul]; exact within_nan _ _
    · have big : ∃ m : F64, IsFin m ∧ (val m = val up ∨ val m = val down) ∧ val up ≤ val m ∧ val down ≤ val m := by
        rcases le_total (val up) (val down) with h | h
        · exact ⟨down, fd, Or.inr rfl, h, le_refl _⟩
        · exact ⟨up, fu, Or.inl rfl, le_refl _, h⟩
      obtain ⟨m, fm, hm, m1, m2⟩ := big
      obtain ⟨fn, vn⟩ := F64.neg_fin fm
      have rs := F64.add_rounds fu fd
      obtain ⟨fs, s1, s2⟩ := (F64.sub_rounds fu fd).between fn fm (by rw [vn]; linarith) (by linarith)
      rw [vn] at s1
      obtain ⟨ft, vt⟩ := fabs_fin fs
      have ns : NN (up + down) := Rounds.nn rs (by linarith)
      rcases share_within ft (by rw [vt]; exact abs_nonneg _) ns (fun ff => by
        rw [beq_zero ff] at hz
        have : val m ≤ val (up + down) := (F64.le_iff fm ff).1 (rs.ge fm (by rcases hm with h | h <;> linarith))
        exact ⟨by rw [vt]; exact (abs_le.2 ⟨s1, s2⟩).trans this, hz⟩) with h | ⟨f, a, b⟩
      · rw [h]; exact nn _
      · exact pct_within (percent' f a b)

/-! ### Exponential smoothing stays between its arguments -/

/-- A difference of doubles, `n ≥ 1` units, lies between doubles `lo` and `hi ≤ 5/4 lo`, or is a double itself. -/
theorem bracket (n : Nat) (hn : n < 2 ^ 2097 + 1) : ∃ lo hi : Nat, F64.Rep lo ∧ F64.Rep hi ∧ lo ≤ n ∧ n ≤ hi ∧ 4 * hi ≤ 5 * lo ∧ hi < 2 ^ 2098 := by
  by_cases h : n < 2 ^ 53
  · refine ⟨n, n, F64.Rep.of_lt h, F64.Rep.of_lt h, le_refl _, le_refl _, by omega, ?_⟩
    exact lt_trans h (Nat.pow_lt_pow_right (by norm_num) (by norm_num))
  · have hn0 : n ≠ 0 := by rintro rfl; exact h (by norm_num)
    have h1 : 2 ^ Nat.log2 n ≤ n := Nat.log2_self_le hn0
    have h2 : n < 2 ^ (Nat.log2 n + 1) := Nat.lt_log2_self
    have hl : 53 ≤ Nat.log2 n := (Nat.le_log2 hn0).2 (not_lt.1 h)
    obtain ⟨e, he⟩ : ∃ e, Nat.log2 n = e + 2 := ⟨Nat.log2 n - 2, by omega⟩
    rw [he] at h1 h2
    have hu : e + 2 ≤ 2097 := by
      by_contra hc
      have : 2 ^ 2098 ≤ 2 ^ (e + 2) := Nat.pow_le_pow_right (by norm_num) (by omega)
      have e2 : (2 : Nat) ^ 2098 = 2 * 2 ^ 2097 := by rw [pow_succ]; ring
      have e3 : 2 ≤ (2 : Nat) ^ 2097 := Nat.le_self_pow (by norm_num) 2
      omega
    have hE : 0 < 2 ^ e := by positivity
    have hup : (2 : Nat) ^ e ≤ 2 ^ 2095 := Nat.pow_le_pow_right (by norm_num) (by omega)
    have e4 : (2 : Nat) ^ 2097 = 4 * 2 ^ 2095 := by rw [show 2097 = 2095 + 2 from rfl, pow_add]; ring
    have e5 : (2 : Nat) ^ 2098 = 8 * 2 ^ 2095 := by rw [show 2098 = 2095 + 3 from rfl, pow_add]; ring
    have e6 : (2 : Nat) ^ (e + 2) = 4 * 2 ^ e := by rw [pow_add]; ring
    have e7 : (2 : Nat) ^ (e + 2 + 1) = 8 * 2 ^ e := by rw [pow_add, pow_add]; ring
    have h95 : 1 < (2 : Nat) ^ 2095 := Nat.one_lt_pow (by norm_num) (by norm_num)
    rw [e6] at h1
    rw [e7] at h2
    have dm := Nat.div_add_mod n (2 ^ e)
    have ml := Nat.mod_lt n hE
    have m4 : 4 ≤ n / 2 ^ e := (Nat.le_div_iff_mul_le hE).2 h1
    have m8 : n / 2 ^ e < 8 := (Nat.div_lt_iff_lt_mul hE).2 h2
    rw [e5]
    rw [e4] at hn
    generalize n / 2 ^ e = m at *
    refine ⟨m * 2 ^ e, (m + 1) * 2 ^ e, (F64.Rep.of_lt (by omega)).shift e, (F64.Rep.of_lt (by omega)).shift e, ?_, ?_, ?_, ?_⟩
    · rw [Nat.mul_comm]; omega
    · rw [Nat.add_mul, Nat.mul_comm m]; omega
    · nlinarith
    · rw [Nat.add_mul, Nat.mul_comm m]; omega


/-- A whole number of units is a difference of two finite doubles. -/
theorem sub_units {x w : F64} (hx : IsFin x) (hw : IsFin w) (h : val w ≤ val x) : ∃ n : Nat, val x - val w = (n : Rat) / (one : Rat) := by
  cases x with
  | fin s k hk0 =>
    cases w with
    | fin t l hk0 =>
      rw [F64.val_le_val] at h
      refine ⟨(units s k - units t l).toNat, ?_⟩
      have e : ((units s k - units t l).toNat : Int) = units s k - units t l := Int.toNat_of_nonneg (by omega)
      have e' : (((units s k - units t l).toNat : Nat) : Rat) = ((units s k - units t l : Int) : Rat) := by
        rw [← e, Int.cast_natCast, e]
      rw [e', Int.cast_sub, sub_div]
      rfl
    | _ => exact absurd hw (by simp [F64.IsFin])
  | _ => exact absurd hx (by simp [F64.IsFin])

theorem val_fin_false (k : Nat) (h) : val (fin false k h) = (k : Rat) / (one : Rat) := by
  show ((units false k : Int) : Rat) / (one : Rat) = _
  rw [units_false, Int.cast_natCast]

/-- If `w ≤ x`, the step `(x - w) * a` is at most `x - w` although both operations round (`a ≤ 4/5`). -/
theorem step_up {x w a : F64} (hx : Price x) (hw : Price w) (h : val w ≤ val x) (ha : IsFin a) (a0 : 0 ≤ val a) (a1 : val a ≤ 4 / 5) :
    IsFin ((x - w) * a) ∧ 0 ≤ val ((x - w) * a) ∧ val ((x - w) * a) ≤ val x - val w := by
  obtain ⟨n, hn⟩ := sub_units hx.1 hw.1 h
  have hb : val x - val w ≤ 2 ^ 1023 := by
    have e : (2 : Rat) ^ 1023 = 2 * 2 ^ 1022 := by rw [pow_succ]; ring
    have h1 := hx.2.2
    have h2 := hw.2.1
    rw [e]; generalize (2 : Rat) ^ 1022 = z at *; linarith
  have hn' : n < 2 ^ 2097 + 1 := by
    rw [hn, div_le_iff₀ oneQ_pos] at hb
    have : n ≤ 2 ^ 1023 * one := by exact_mod_cast hb
    have e : 2 ^ 1023 * one = 2 ^ 2097 := by unfold one; rw [← pow_add]
    rw [e] at this; exact Nat.lt_succ_of_le this
  obtain ⟨lo, hi, rl, rh, h1, h2, h3, h4⟩ := bracket n hn'
  have okl : F64.Rep lo ∧ lo < limit := ⟨rl, by unfold limit; exact lt_of_le_of_lt (h1.trans h2) h4⟩
  have okh : F64.Rep hi ∧ hi < limit := ⟨rh, by unfold limit; exact h4⟩
  have fl : IsFin (fin false lo okl) := trivial
  have fh : IsFin (fin false hi okh) := trivial
  have vl := val_fin_false lo okl
  have vh := val_fin_false hi okh
  have q1 : (lo : Rat) ≤ n := by exact_mod_cast h1
  have q2 : (n : Rat) ≤ hi := by exact_mod_cast h2
  have q3 : 4 * (hi : Rat) ≤ 5 * lo := by exact_mod_cast h3
  have q0 : (0 : Rat) ≤ lo := Nat.cast_nonneg lo
  have rs := F64.sub_rounds hx.1 hw.1
  rw [hn] at rs
  rw [hn]
  have P := oneQ_pos
  generalize (one : Rat) = u at *
  obtain ⟨ft, t1, t2⟩ := rs.between fl fh (by rw [vl]; exact div_le_div_of_nonneg_right q1 P.le)
    (by rw [vh]; exact div_le_div_of_nonneg_right q2 P.le)
  have L0 : 0 ≤ (lo : Rat) / u := div_nonneg q0 P.le
  rw [vl] at t1
  rw [vh] at t2
  have t0 : 0 ≤ val (x - w) := L0.trans t1
  have t3 : val (x - w) * val a ≤ (lo : Rat) / u := by
    calc val (x - w) * val a ≤ ((hi : Rat) / u) * (4 / 5) := mul_le_mul t2 a1 a0 (t0.trans t2)
      _ = (4 * (hi : Rat)) / (5 * u) := by field_simp
      _ ≤ (5 * (lo : Rat)) / (5 * u) := div_le_div_of_nonneg_right q3 (by positivity)
      _ = (lo : Rat) / u := by field_simp
  obtain ⟨fu, u1, u2⟩ := (F64.mul_rounds ft ha).between zero_fin fl (by rw [zero_val]; exact mul_nonneg t0 a0) (by rw [vl]; exact t3)
  rw [zero_val] at u1
  rw [vl] at u2
  exact ⟨fu, u1, u2.trans (div_le_div_of_nonneg_right q1 P.le)⟩

/-- … and if `x ≤ w`, it is at least `x - w`. -/
theorem step_down {x w a : F64} (hx : Price x) (hw : Price w) (h : val x ≤ val w) (ha : IsFin a) (a0 : 0 ≤ val a) (a1 : val a ≤ 4 / 5) :
    IsFin ((x - w) * a) ∧ val x - val w ≤ val ((x - w) * a) ∧ val ((x - w) * a) ≤ 0 := by
  obtain ⟨n, hn⟩ := sub_units hw.1 hx.1 h
  have hb : val w - val x ≤ 2 ^ 1023 := by
    have e : (2 : Rat) ^ 1023 = 2 * 2 ^ 1022 := by rw [pow_succ]; ring
    have h1 := hw.2.2
    have h2 := hx.2.1
    rw [e]; generalize (2 : Rat) ^ 1022 = z at *; linarith
  have hn' : n < 2 ^ 2097 + 1 := by
    rw [hn, div_le_iff₀ oneQ_pos] at hb
    have : n ≤ 2 ^ 1023 * one := by exact_mod_cast hb
    have e : 2 ^ 1023 * one = 2 ^ 2097 := by unfold one; rw [← pow_add]
    rw [e] at this; exact Nat.lt_succ_of_le this
  obtain ⟨lo, hi, rl, rh, h1, h2, h3, h4⟩ := bracket n hn'
  have okl : F64.Rep lo ∧ lo < limit := ⟨rl, by unfold limit; exact lt_of_le_of_lt (h1.trans h2) h4⟩
  have okh : F64.Rep hi ∧ hi < limit := ⟨rh, by unfold limit; exact h4⟩
  have fl : IsFin (fin false lo okl) := trivial
  have fh : IsFin (fin false hi okh) := trivial
  have vl := val_fin_false lo okl
  have vh := val_fin_false hi okh
  obtain ⟨gl, wl⟩ := F64.neg_fin fl
  obtain ⟨gh, wh⟩ := F64.neg_fin fh
  rw [vl] at wl
  rw [vh] at wh
  have q1 : (lo : Rat) ≤ n := by exact_mod_cast h1
  have q2 : (n : Rat) ≤ hi := by exact_mod_cast h2
  have q3 : 4 * (hi : Rat) ≤ 5 * lo := by exact_mod_cast h3
  have q0 : (0 : Rat) ≤ lo := Nat.cast_nonneg lo
  have rs := F64.sub_rounds hx.1 hw.1
  have hn2 : val x - val w = -((n : Rat) / (one : Rat)) := by rw [← hn]; ring
  rw [hn2] at rs
  rw [hn2]
  have P := oneQ_pos
  generalize (one : Rat) = u at *
  have Q1 : (lo : Rat) / u ≤ (n : Rat) / u := div_le_div_of_nonneg_right q1 P.le
  have Q2 : (n : Rat) / u ≤ (hi : Rat) / u := div_le_div_of_nonneg_right q2 P.le
  obtain ⟨ft, t1, t2⟩ := rs.between gh gl (by rw [wh]; linarith) (by rw [wl]; linarith)
  have L0 : 0 ≤ (lo : Rat) / u := div_nonneg q0 P.le
  rw [wh] at t1
  rw [wl] at t2
  have t0 : 0 ≤ -val (x - w) := by linarith
  have t3 : -val (x - w) * val a ≤ (lo : Rat) / u := by
    calc -val (x - w) * val a ≤ ((hi : Rat) / u) * (4 / 5) := mul_le_mul (by linarith) a1 a0 (by linarith)
      _ = (4 * (hi : Rat)) / (5 * u) := by field_simp
      _ ≤ (5 * (lo : Rat)) / (5 * u) := div_le_div_of_nonneg_right q3 (by positivity)
      _ = (lo : Rat) / u := by field_simp
  have t4 := mul_nonneg t0 a0
  obtain ⟨fu, u1, u2⟩ := (F64.mul_rounds ft ha).between gl zero_fin (by rw [wl]; linarith) (by rw [zero_val]; linarith)
  rw [zero_val] at u2
  rw [wl] at u1
  exact ⟨fu, by linarith, u2⟩

/-- Exponential smoothing `(x - w) * a + w` in doubles stays between two doubles that enclose `x` and `w`. -/
theorem smooth_between {x w a lo hi : F64} (hx : Price x) (hw : Price w) (ha : IsFin a) (a0 : 0 ≤ val a) (a1 : val a ≤ 4 / 5)
    (fl : IsFin lo) (fh : IsFin hi) (x1 : val lo ≤ val x) (x2 : val x ≤ val hi) (w1 : val lo ≤ val w) (w2 : val w ≤ val hi) :
    IsFin ((x - w) * a + w) ∧ val lo ≤ val ((x - w) * a + w) ∧ val ((x - w) * a + w) ≤ val hi := by
  rcases le_total (val w) (val x) with h | h
  · obtain ⟨f, u1, u2⟩ := step_up hx hw h ha a0 a1
    exact (F64.add_rounds f hw.1).between fl fh (by linarith) (by linarith)
  · obtain ⟨f, u1, u2⟩ := step_down hx hw h ha a0 a1
    exact (F64.add_rounds f hw.1).between fl fh (by linarith) (by linarith)

theorem emaPer_def {R : Type} [Num R] (p : Int) : (emaPer p : R) = c! 2 / ((p : R) + c! 1) := rfl
theorem emaRec_zero {R : Type} [Num R] (a : R) (x : Nat → R) : emaRec a x 0 = x 0 := rfl
theorem emaRec_succ {R : Type} [Num R] (a : R) (x : Nat → R) (n : Nat) :
    emaRec a x (n + 1) = (x (n + 1) - emaRec a x n) * a + emaRec a x n := rfl

theorem three_quarters_ok : F64.Rep (3 * 2 ^ 1072) ∧ 3 * 2 ^ 1072 < limit := by
  refine ⟨(F64.Rep.of_lt (by norm_num)).shift 1072, ?_⟩
  · have h : 3 * 2 ^ 1072 < 2 ^ 1074 := by rw [show 1074 = 1072 + 2 from rfl, pow_add]; have : 0 < 2 ^ 1072 := by positivity
                                           omega
    unfold limit
    exact h.trans (Nat.pow_lt_pow_right (by norm_num) (by norm_num))
/-- `fin` with value `3/4`. -/
theorem three_quarters : IsFin (fin false (3 * 2 ^ 1072) three_quarters_ok) ∧ val (fin false (3 * 2 ^ 1072) three_quarters_ok) = 3 / 4 := by
  refine ⟨trivial, ?_⟩
  · rw [val_fin_false]
    unfold one
    rw [Nat.cast_mul, Nat.cast_pow, Nat.cast_pow, Nat.cast_ofNat, Nat.cast_ofNat, show (1074 : Nat) = 1072 + 2 from rfl, pow_add]
    have : (2 : Rat) ^ 1072 ≠ 0 := by positivity
    generalize (2 : Rat) ^ 1072 = z at *
    field_simp; norm_num

theorem emaPer_fin {p : Nat} (hp : 2 ≤ p) (hb : p < 2 ^ 31) :
    IsFin (emaPer (p : Int) : F64) ∧ 0 ≤ val (emaPer (p : Int) : F64) ∧ val (emaPer (p : Int) : F64) ≤ 4 / 5 := by
  obtain ⟨f, v, h0⟩ := period_fin (by omega : 1 ≤ p) hb
  have hq : (((p + 1 : Nat) : Int)).natAbs < 2 ^ 53 := by
    rw [Int.natAbs_natCast]
    exact lt_of_le_of_lt hb (Nat.pow_lt_pow_right (by norm_num) (by norm_num))
  have fq := int_fin _ hq
  have vq := int_val _ hq
  have r := F64.add_rounds f one_fin
  have e1 : val (((p : Int)) : F64) + val (c! 1 : F64) = val ((((p + 1 : Nat) : Int)) : F64) := by
    rw [v, one_val, vq, Int.cast_natCast, Nat.cast_add, Nat.cast_one]
  obtain ⟨g, e⟩ := r.exact fq e1
  rw [e1, vq, Int.cast_natCast, Nat.cast_add, Nat.cast_one] at e
  have f2 : IsFin (c! 2 : F64) := int_fin 2 (by norm_num)
  have v2 : val (c! 2 : F64) = 2 := by rw [int_val 2 (by norm_num)]; norm_num
  have hp' : (2 : Rat) ≤ p := by exact_mod_cast hp
  have r2 := F64.div_rounds f2 g (by rw [e]; linarith)
  rw [v2, e] at r2
  obtain ⟨t1, t2⟩ := three_quarters
  have key := r2.between zero_fin t1 (by rw [zero_val]; positivity) (by rw [t2, div_le_iff₀ (by linarith)]; linarith)
  rw [zero_val, t2] at key
  rw [emaPer_def]
  exact ⟨key.1, key.2.1, key.2.2.trans (by norm_num)⟩

/-- The ema of doubles stays between bounds of its inputs. -/
theorem emaRec_between {a lo hi : F64} (ha : IsFin a) (a0 : 0 ≤ val a) (a1 : val a ≤ 4 / 5) (pl : Price lo) (ph : Price hi)
    (x : Nat → F64) (j : Nat) (hx : ∀ k, k ≤ j → IsFin (x k) ∧ val lo ≤ val (x k) ∧ val (x k) ≤ val hi) :
    IsFin (emaRec a x j) ∧ val lo ≤ val (emaRec a x j) ∧ val (emaRec a x j) ≤ val hi := by
  have pr : ∀ y, IsFin y ∧ val lo ≤ val y ∧ val y ≤ val hi → Price y := fun y h =>
    ⟨h.1, pl.2.1.trans h.2.1, h.2.2.trans ph.2.2⟩
  induction j with
  | zero => rw [emaRec_zero]; exact hx 0 (le_refl _)
  | succ j ih =>
    have i := ih fun k hk => hx k (by omega)
    have y := hx (j + 1) (le_refl _)
    rw [emaRec_succ]
    exact smooth_between (pr _ y) (pr _ i) ha a0 a1 pl.1 ph.1 y.2.1 y.2.2 i.2.1 i.2.2
/-! ### Whole numbers are summed exactly -/

theorem slide_zero {R : Type} [Num R] (x : Nat → R) (p : Nat) : slide x p 0 = c! 0 := rfl
theorem slide_succ {R : Type} [Num R] (x : Nat → R) (p i : Nat) :
    slide x p (i + 1) = if i < p then slide x p i + x i else slide x p i + x i - x (i - p) := rfl

theorem add_int {a b : F64} {m n : Int} (fa : IsFin a) (fb : IsFin b) (va : val a = m) (vb : val b = n)
    (h : (m + n).natAbs < 2 ^ 53) : IsFin (a + b) ∧ val (a + b) = ((m + n : Int) : Rat) := by
  have e : val a + val b = val (((m + n : Int)) : F64) := by rw [va, vb, int_val _ h, Int.cast_add]
  obtain ⟨f, v⟩ := (F64.add_rounds fa fb).exact (int_fin _ h) e
  exact ⟨f, by rw [v, e, int_val _ h]⟩
theorem sub_int {a b : F64} {m n : Int} (fa : IsFin a) (fb : IsFin b) (va : val a = m) (vb : val b = n)
    (h : (m - n).natAbs < 2 ^ 53) : IsFin (a - b) ∧ val (a - b) = ((m - n : Int) : Rat) := by
  have e : val a - val b = val (((m - n : Int)) : F64) := by rw [va, vb, int_val _ h, Int.cast_sub]
  obtain ⟨f, v⟩ := (F64.sub_rounds fa fb).exact (int_fin _ h) e
  exact ⟨f, by rw [v, e, int_val _ h]⟩

theorem slide_int (x : Nat → F64) (k : Nat → Int) (B p : Nat) (hx : ∀ i, IsFin (x i) ∧ val (x i) = k i ∧ (k i).natAbs ≤ B)
    (hB : (p + 1) * B < 2 ^ 53) (i : Nat) :
    IsFin (slide x p i) ∧ val (slide x p i) = ((∑ m ∈ Finset.Ico (i - p) i, k m : Int) : Rat) := by
  have bnd : ∀ i, (∑ m ∈ Finset.Ico (i - p) i, k m).natAbs ≤ p * B := fun i => by
    calc (∑ m ∈ Finset.Ico (i - p) i, k m).natAbs ≤ ∑ m ∈ Finset.Ico (i - p) i, (k m).natAbs := Int.natAbs_sum_le _ _
      _ ≤ ∑ _m ∈ Finset.Ico (i - p) i, B := Finset.sum_le_sum fun m _ => (hx m).2.2
      _ = (i - (i - p)) * B := by rw [Finset.sum_const, Nat.card_Ico]; rfl
      _ ≤ p * B := Nat.mul_le_mul_right _ (by omega)
  have e1 : (p + 1) * B = p * B + B := by ring
  rw [e1] at hB
  induction i with
  | zero => rw [slide_zero]; exact ⟨zero_fin, by rw [zero_val]; simp⟩
  | succ i ih =>
    obtain ⟨f, v⟩ := ih
    have b1 := bnd i
    have b2 := (hx i).2.2
    have b3 := bnd (i + 1)
    have t : (∑ m ∈ Finset.Ico (i - p) i, k m + k i).natAbs ≤ p * B + B :=
      (Int.natAbs_add_le _ _).trans (Nat.add_le_add b1 b2)
    obtain ⟨g, w⟩ := add_int f (hx i).1 v (hx i).2.1 (lt_of_le_of_lt t hB)
    rw [slide_succ]
    split
    · rename_i h
      refine ⟨g, ?_⟩
      rw [w, show i + 1 - p = 0 by omega, show i - p = 0 by omega, Finset.sum_Ico_succ_top (Nat.zero_le i)]
    · rename_i h
      have e : ∑ m ∈ Finset.Ico (i - p) i, k m + k i - k (i - p) = ∑ m ∈ Finset.Ico (i + 1 - p) (i + 1), k m := by
        rw [← Finset.sum_Ico_succ_top (by omega : i - p ≤ i), Finset.sum_eq_sum_Ico_succ_bot (by omega : i - p < i + 1),
          show i - p + 1 = i + 1 - p by omega]
        ring
      have := sub_int g (hx (i - p)).1 w (hx (i - p)).2.1 (by
        rw [e]; exact lt_of_le_of_lt b3 (lt_of_le_of_lt (Nat.le_add_right _ _) hB))
      rwa [e] at this


theorem mul_comm_inf : (c! 100 : F64) * .inf false = .inf false := by
  have h : (c! 100 : F64) * .inf false = (.inf false : F64) * c! 100 := by
    rw [mul_def, mul_def]
    have := hundred_fin
    revert this
    generalize (c! 100 : F64) = a
    intro ha
    cases a with
    | fin s k hk0 => cases s <;> rfl
    | _ => exact absurd ha (by simp [F64.IsFin])
  rw [h]; exact inf_mul_pos _ hundred_fin (by rw [hundred_val]; norm_num)

theorem val_fin_true (k : Nat) (h) : val (fin true k h) = -((k : Rat) / (one : Rat)) := by
  show ((units true k : Int) : Rat) / (one : Rat) = _
  rw [units_true, Int.cast_neg, Int.cast_natCast, neg_div]

/-- Doubling a price is exact. -/
theorem twice {a : F64} (h : Price a) : IsFin (a + a) ∧ val (a + a) = 2 * val a := by
  obtain ⟨f0, h1, h2⟩ := h
  cases a with
  | fin s k ok =>
    have r := F64.add_rounds f0 f0
    have hk : (k : Rat) / (one : Rat) ≤ 2 ^ 1022 := by
      cases s
      · rwa [val_fin_false] at h2
      · rw [val_fin_true] at h1; linarith
    rw [div_le_iff₀ oneQ_pos] at hk
    have hk' : k ≤ 2 ^ 1022 * one := by exact_mod_cast hk
    have e2 : 2 ^ 1022 * one = 2 ^ 2096 := by unfold one; rw [← pow_add]
    rw [e2] at hk'
    have ok2 : F64.Rep (k * 2 ^ 1) ∧ k * 2 ^ 1 < limit := by
      refine ⟨ok.1.shift 1, ?_⟩
      unfold limit
      calc k * 2 ^ 1 ≤ 2 ^ 2096 * 2 ^ 1 := Nat.mul_le_mul_right _ hk'
        _ = 2 ^ 2097 := by rw [← pow_add]
        _ < 2 ^ 2098 := Nat.pow_lt_pow_right (by norm_num) (by norm_num)
    have e : val (fin s k ok) + val (fin s k ok) = val (fin s (k * 2 ^ 1) ok2) := by
      cases s
      · rw [val_fin_false, val_fin_false, pow_one, Nat.cast_mul, Nat.cast_ofNat]; ring
      · rw [val_fin_true, val_fin_true, pow_one, Nat.cast_mul, Nat.cast_ofNat]; ring
    obtain ⟨f, v⟩ := r.exact (K := fin s (k * 2 ^ 1) ok2) trivial e
    exact ⟨f, by rw [v]; ring⟩
  | _ => exact absurd f0 (by simp [F64.IsFin])

theorem half : IsFin (c! 1 / c! 2 : F64) ∧ val (c! 1 / c! 2 : F64) = 1 / 2 := by
  have f2 : IsFin (c! 2 : F64) := int_fin 2 (by norm_num)
  have v2 : val (c! 2 : F64) = 2 := by rw [int_val 2 (by norm_num)]; norm_num
  have r := F64.div_rounds one_fin f2 (by rw [v2]; norm_num)
  rw [one_val, v2] at r
  have ok : F64.Rep (2 ^ 1073) ∧ 2 ^ 1073 < limit :=
    ⟨F64.Rep.pow _, by unfold limit; exact Nat.pow_lt_pow_right (by norm_num) (by norm_num)⟩
  have hv : val (fin false (2 ^ 1073) ok) = 1 / 2 := by
    rw [val_fin_false]
    unfold one
    rw [Nat.cast_pow, Nat.cast_pow, Nat.cast_ofNat, show (1074 : Nat) = 1073 + 1 from rfl, pow_succ]
    have : (2 : Rat) ^ 1073 ≠ 0 := by positivity
    generalize (2 : Rat) ^ 1073 = z at *
    field_simp
  exact r.exact (K := fin false (2 ^ 1073) ok) trivial hv.symm

end
end Verif
