/- trima, hma, kst over an ordered field (helper lemmas). -/
import Verif.Proof.Weighted
import Verif.Proof.WindowField
import Verif.Proof.EmaField
import Verif.Spec.Weighted

namespace Verif
open Finset Spec
set_option linter.unusedSectionVars false
set_option linter.unusedSimpArgs false
variable {R : Type} [Field R] [LinearOrder R] [IsStrictOrderedRing R] [CMath R]

theorem triLead_bounds (p : Nat) (hp : 3 ≤ p) : 1 ≤ triLead p ∧ triLead p + 2 ≤ p ∧ p ≤ 2 * triLead p + 2 ∧ 2 * triLead p + 1 ≤ p := by
  unfold triLead; split <;> omega

theorem tri_cast (p i : Nat) (h : i < p) : ((min ((i : Int) + 1) (p - i) : Int) : R) = (triWeight p i : R) := by
  rw [show min ((i : Int) + 1) (p - i) = ((triWeight p i : Nat) : Int) by unfold triWeight; omega]; simp

theorem trimaSt_warm (p : Nat) (x : Nat → R) (i : Nat) (hi : i ≤ p - 1) :
    trimaSt p x i = (∑ k ∈ range i, (triWeight p k : R) * x k, ∑ k ∈ range i, (if p - triLead p ≤ k then x k else 0),
      ∑ k ∈ range i, (if k ≤ triLead p then x k else 0)) := by
  induction i with
  | zero => simp [trimaSt]
  | succ i ih =>
    rw [trimaSt, if_pos (by omega), ih (by omega), tri_cast p i (by omega)]
    simp only [sum_range_succ]
    refine Prod.ext ?_ (Prod.ext ?_ ?_)
    · simp only; ring
    · simp only
      by_cases h : p - triLead p ≤ i
      · rw [if_pos (by omega), if_pos h]
      · rw [if_neg (by omega), if_neg h, add_zero]
    · simp only
      by_cases h : i ≤ triLead p
      · rw [if_pos (by omega), if_pos h]
      · rw [if_neg (by omega), if_neg h, add_zero]

/-- A sum over a window cut at a threshold, moved one bar. -/
theorem cut_shift (x : Nat → R) (a n j : Nat) :
    ∑ k ∈ range n, (if a ≤ k then x (j + 1 + k) else 0) = ∑ k ∈ range (n + 1), (if a + 1 ≤ k then x (j + k) else 0) := by
  rw [sum_range_succ' _ n]
  simp only [show ¬ a + 1 ≤ 0 by omega, if_false, add_zero]
  refine sum_congr rfl fun k _ => ?_
  rw [show j + 1 + k = j + (k + 1) by omega]
  by_cases h : a ≤ k
  · rw [if_pos h, if_pos (by omega)]
  · rw [if_neg h, if_neg (by omega)]

theorem low_shift (x : Nat → R) (a n j : Nat) :
    ∑ k ∈ range n, (if k ≤ a then x (j + 1 + k) else 0) = ∑ k ∈ range (n + 1), (if 1 ≤ k ∧ k ≤ a + 1 then x (j + k) else 0) := by
  rw [sum_range_succ' _ n]
  simp only [show ¬ (1 ≤ 0 ∧ 0 ≤ a + 1) by omega, if_false, add_zero]
  refine sum_congr rfl fun k _ => ?_
  rw [show j + 1 + k = j + (k + 1) by omega]
  by_cases h : k ≤ a
  · rw [if_pos h, if_pos (by omega)]
  · rw [if_neg h, if_neg (by omega)]

theorem tri_shift (p : Nat) (hp : 1 ≤ p) (x : Nat → R) (j : Nat) :
    ∑ k ∈ range (p - 1), (triWeight p k : R) * x (j + 1 + k) = ∑ k ∈ range p, ((min k (p + 1 - k) : Nat) : R) * x (j + k) := by
  obtain ⟨q, rfl⟩ : ∃ q, p = q + 1 := ⟨p - 1, by omega⟩
  rw [Nat.add_sub_cancel, sum_range_succ' _ q]
  simp only [show min 0 (q + 1 + 1 - 0) = 0 by omega, Nat.cast_zero, zero_mul, add_zero]
  refine sum_congr rfl fun k _ => ?_
  rw [show j + 1 + k = j + (k + 1) by omega]
  congr 2
  unfold triWeight; omega

/-- One value out of a window. -/
theorem pick (x : Nat → R) (n j a : Nat) (h : a < n) : x (j + a) = ∑ k ∈ range n, (if k = a then x (j + k) else 0) := by
  rw [sum_ite_eq' (range n) a (fun k => x (j + k)), if_pos (by simpa using h)]

theorem trimaSt_main (p : Nat) (hp : 3 ≤ p) (x : Nat → R) (j : Nat) :
    trimaSt p x (j + (p - 1)) = (∑ k ∈ range (p - 1), (triWeight p k : R) * x (j + k),
      ∑ k ∈ range (p - 1), (if p - triLead p ≤ k then x (j + k) else 0),
      ∑ k ∈ range (p - 1), (if k ≤ triLead p then x (j + k) else 0)) := by
  obtain ⟨b1, b2, b3, b4⟩ := triLead_bounds p hp
  induction j with
  | zero => simpa using trimaSt_warm p x (p - 1) (Nat.le_refl _)
  | succ j ih =>
    rw [show j + 1 + (p - 1) = (j + (p - 1)) + 1 by omega, trimaSt, if_neg (by omega), ih]
    generalize triLead p = L at *
    obtain ⟨q, rfl⟩ : ∃ q, p = q + 1 := ⟨p - 1, by omega⟩
    simp only [Nat.add_sub_cancel]
    refine Prod.ext ?_ (Prod.ext ?_ ?_)
    · simp only
      have e := tri_shift (q + 1) (by omega) x j
      rw [Nat.add_sub_cancel] at e
      rw [e, sum_range_succ]
      have t : ∑ k ∈ range q, ((min k (q + 1 + 1 - k) : Nat) : R) * x (j + k) =
          ∑ k ∈ range q, (triWeight (q + 1) k : R) * x (j + k) + ∑ k ∈ range q, (if q + 1 - L ≤ k then x (j + k) else 0)
            - ∑ k ∈ range q, (if k ≤ L then x (j + k) else 0) := by
        rw [← sum_add_distrib, ← sum_sub_distrib]
        refine sum_congr rfl fun k hk => ?_
        have hk := mem_range.1 hk
        by_cases h1 : k ≤ L
        · rw [if_neg (by omega), if_pos h1, show triWeight (q + 1) k = min k (q + 1 + 1 - k) + 1 by unfold triWeight; omega]
          push_cast; ring
        · by_cases h2 : q + 1 - L ≤ k
          · rw [if_pos h2, if_neg h1, show min k (q + 1 + 1 - k) = triWeight (q + 1) k + 1 by unfold triWeight; omega]
            push_cast; ring
          · rw [if_neg h2, if_neg h1, show min k (q + 1 + 1 - k) = triWeight (q + 1) k by unfold triWeight; omega]
            ring
      rw [t, show min q (q + 1 + 1 - q) = 2 by omega]
      push_cast; ring
    · simp only
      rw [cut_shift, show j + q - L + 1 = j + (q + 1 - L) by omega, pick x (q + 1) j (q + 1 - L) (by omega)]
      have h0 : x (j + q) = if q + 1 - L ≤ q then x (j + q) else 0 := by rw [if_pos (by omega)]
      rw [h0, ← sum_range_succ (fun k => if q + 1 - L ≤ k then x (j + k) else 0), ← sum_sub_distrib]
      refine sum_congr rfl fun k _ => ?_
      split_ifs <;> first | omega | simp
    · simp only
      rw [low_shift, show j + L + 1 = j + (L + 1) by omega, pick x (q + 1) j (L + 1) (by omega)]
      have hx : x j = ∑ k ∈ range (q + 1), (if k = 0 then x (j + k) else 0) := pick x (q + 1) j 0 (by omega)
      rw [hx]
      have h0 : ∑ k ∈ range q, (if k ≤ L then x (j + k) else 0) = ∑ k ∈ range (q + 1), (if k ≤ L then x (j + k) else 0) := by
        rw [sum_range_succ, if_neg (by omega), add_zero]
      rw [h0, ← sum_add_distrib, ← sum_sub_distrib]
      refine sum_congr rfl fun k _ => ?_
      split_ifs <;> first | omega | simp

theorem triDen_sum (p : Nat) : ∑ k ∈ range p, triWeight p k = triDen p := by
  have key : ∀ m, (∑ k ∈ range (2 * m + 1), triWeight (2 * m + 1) k = (m + 1) * (m + 1)) ∧
      (∑ k ∈ range (2 * m), triWeight (2 * m) k = (m + 1) * m) := by
    have step : ∀ q, ∑ k ∈ range (q + 2), triWeight (q + 2) k = ∑ k ∈ range q, triWeight q k + (q + 2) := by
      intro q
      rw [sum_range_succ, sum_range_succ', show triWeight (q + 2) 0 = 1 by unfold triWeight; omega,
        show triWeight (q + 2) (q + 1) = 1 by unfold triWeight; omega]
      have : ∑ k ∈ range q, triWeight (q + 2) (k + 1) = ∑ k ∈ range q, (triWeight q k + 1) :=
        sum_congr rfl fun k hk => by have := mem_range.1 hk; unfold triWeight; omega
      rw [this, sum_add_distrib]; simp; omega
    intro m
    induction m with
    | zero => simp [triWeight]
    | succ m ih =>
      rw [show 2 * (m + 1) + 1 = (2 * m + 1) + 2 by ring, show 2 * (m + 1) = 2 * m + 2 by ring, step, step, ih.1, ih.2]
      constructor <;> ring
  unfold triDen
  by_cases h : p % 2 = 1
  · rw [if_pos h]
    have := (key (p / 2)).1
    rwa [show 2 * (p / 2) + 1 = p by omega] at this
  · rw [if_neg h]
    have := (key (p / 2)).2
    rwa [show 2 * (p / 2) = p by omega] at this

theorem trimaVal_eq (p : Nat) (hp : 3 ≤ p) (x : Nat → R) (j : Nat) : trimaVal p x j = trima p x j := by
  unfold trimaVal trima
  rw [trimaSt_main p hp, ← Nat.cast_sum, triDen_sum]
  obtain ⟨q, rfl⟩ : ∃ q, p = q + 1 := ⟨p - 1, by omega⟩
  rw [sum_range_succ, Nat.add_sub_cancel, show triWeight (q + 1) q = 1 by unfold triWeight; omega]
  simp [div_eq_mul_inv]

/-- Windows of one or two values weigh them equally. -/
theorem trima_short (p : Nat) (h1 : 1 ≤ p) (h2 : p ≤ 2) (x : Nat → R) (j : Nat) : winMean p x j = trima p x j := by
  unfold winMean winSum trima
  have : ∀ k ∈ range p, triWeight p k = 1 := fun k hk => by have := mem_range.1 hk; unfold triWeight; omega
  have e1 : ∑ k ∈ range p, (triWeight p k : R) * x (j + k) = ∑ k ∈ range p, x (j + k) :=
    sum_congr rfl fun k hk => by rw [this k hk]; simp
  have e2 : ∑ k ∈ range p, (triWeight p k : R) = p := by
    rw [sum_congr rfl fun k hk => by rw [this k hk]]; simp
  rw [e1, e2]

theorem hmaQ_warm (s : Nat) (d : Nat → R) (m : Nat) (hm : m ≤ s) :
    hmaQ (s + 1) d m = (∑ k ∈ range m, ((s - m + k + 1 : Nat) : R) * d k, ∑ k ∈ range m, d k) := by
  induction m with
  | zero => simp [hmaQ]
  | succ m ih =>
    rw [hmaQ, ih (by omega), if_neg (by omega)]
    refine Prod.ext ?_ ?_
    · simp only [sum_range_succ]
      have : ∑ k ∈ range m, ((s - m + k + 1 : Nat) : R) * d k = ∑ k ∈ range m, ((s - (m + 1) + k + 1 : Nat) : R) * d k + ∑ k ∈ range m, d k := by
        rw [← sum_add_distrib]
        refine sum_congr rfl fun k _ => ?_
        rw [show s - m + k + 1 = s - (m + 1) + k + 1 + 1 by omega]; push_cast; ring
      rw [this, show s - (m + 1) + m + 1 = s by omega]
      push_cast; ring
    · simp only [sum_range_succ]

theorem hmaQ_main (s : Nat) (d : Nat → R) (j : Nat) : hmaQ (s + 1) d (j + s) = (winWSum s d j, winSum s d j) := by
  induction j with
  | zero =>
    rw [Nat.zero_add, hmaQ_warm s d s (Nat.le_refl _)]
    simp [winWSum, winSum]
  | succ j ih =>
    rw [show j + 1 + s = (j + s) + 1 by omega, hmaQ, ih, if_pos (by omega), winWSum_succ, winSum_succ,
      show j + s - (s + 1 - 1) = j by omega]
    refine Prod.ext ?_ ?_
    · simp only; push_cast; ring
    · simp only

theorem hmaVal_eq (p s : Nat) (hp : 2 ≤ p) (hs : 1 ≤ s) (x : Nat → R) (j : Nat) : hmaVal p s x j =
    wma s (fun m => 2 * wma (p / 2) x (m + (p - p / 2)) - wma p x m) j := by
  have hd : hmaD p x = fun m => 2 * wma (p / 2) x (m + (p - p / 2)) - wma p x m := by
    funext m
    rw [hmaD, wmaVal_eq _ (by omega), wmaVal_eq _ (by omega), wma, wma]
    simp only [winWSum, show ∀ k, m + k + (p - p / 2) = m + (p - p / 2) + k from fun k => by omega]
    push_cast; rfl
  rw [← hd]
  obtain ⟨t, rfl⟩ : ∃ t, s = t + 1 := ⟨s - 1, by omega⟩
  unfold hmaVal
  rw [Nat.add_sub_cancel, hmaQ_main, weights_eq, wma]
  congr 1
  simp only [winWSum]; push_cast
  rw [sum_range_succ]; ring

theorem rocSig_eq (x : Nat → R) (p : Nat) : rocSig x p = change p x := rfl

theorem kstVal_eq (r1 r2 r3 r4 m1 m2 m3 m4 : Nat) (hr : r1 < r2 ∧ r2 < r3 ∧ r3 < r4) (x : Nat → R) (j : Nat) :
    kstVal r1 r2 r3 r4 m1 m2 m3 m4 x j = kst r1 r2 r3 r4 m1 m2 m3 m4 x j := by
  have e : ∀ m : Nat, (c! 2 / ((m + 1 : Int) : R) : R) = emaCoef m := fun m => by simp [emaCoef]
  unfold kstVal kst kstMix
  rw [e, e, e, e, emaRec_eq, emaRec_eq, emaRec_eq, emaRec_eq, rocSig_eq, rocSig_eq, rocSig_eq, rocSig_eq,
    show r4 + j - r1 = j + (r4 - r1) by omega, show r4 + j - r2 = j + (r4 - r2) by omega, show r4 + j - r3 = j + (r4 - r3) by omega,
    show r4 + j - r4 = j by omega]
  congr 1
  · push_cast; ring
  · push_cast; rfl

end Verif
