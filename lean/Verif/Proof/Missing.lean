/- Arithmetic with a NaN, and what it does to the recursions of the indicators. -/
import Verif.Spec.Missing
import Verif.Spec.Contract
import Verif.Proof.Ema
import Verif.Proof.Sum
import Verif.Proof.Stats
import Verif.Proof.Window
import Verif.Proof.Volume
import Verif.Proof.Smooth
import Verif.Proof.Direction
import Verif.Proof.Weighted
import Verif.Proof.Trend
import Verif.Proof.Filters
import Verif.Proof.Flow
import Verif.Proof.Osc
import Verif.Proof.Rank
import Verif.Proof.Average
import Verif.Proof.Adaptive
import Verif.Proof.Simple

namespace Verif.Missing
open Verif
set_option linter.unusedSectionVars false
set_option linter.unusedVariables false

/-- A value that arithmetic cannot get rid of and that compares with nothing.  (Stated for any numbers so that nothing is ever
computed with doubles in the proofs.) -/
class HasNan (R : Type) [Num R] where
  nan : R
  nan_add (a : R) : nan + a = nan
  add_nan (a : R) : a + nan = nan
  nan_sub (a : R) : nan - a = nan
  sub_nan (a : R) : a - nan = nan
  nan_mul (a : R) : nan * a = nan
  mul_nan (a : R) : a * nan = nan
  nan_div (a : R) : nan / a = nan
  div_nan (a : R) : a / nan = nan
  neg_nan : -nan = nan
  nan_beq (a : R) : (nan == a) = false
  beq_nan (a : R) : (a == nan) = false
  not_nan_lt (a : R) : ¬ nan < a
  not_lt_nan (a : R) : ¬ a < nan
  not_nan_le (a : R) : ¬ nan ≤ a
  not_le_nan (a : R) : ¬ a ≤ nan
  sqrt_nan : CMath.sqrt nan = nan
  fabs_nan : CMath.fabs nan = nan

open HasNan
attribute [simp] nan_add add_nan nan_sub sub_nan nan_mul mul_nan nan_div div_nan neg_nan nan_beq beq_nan not_nan_lt not_lt_nan not_nan_le not_le_nan sqrt_nan fabs_nan

instance [Libm] : HasNan F64 where
  nan := .nan
  nan_add _ := rfl
  add_nan a := by cases a <;> rfl
  nan_sub _ := rfl
  sub_nan a := by cases a <;> rfl
  nan_mul _ := rfl
  mul_nan a := by cases a <;> rfl
  nan_div _ := rfl
  div_nan a := by cases a <;> rfl
  neg_nan := rfl
  nan_beq _ := rfl
  beq_nan a := by cases a <;> rfl
  not_nan_lt a := by rintro (h : F64.lt .nan a = true); cases h
  not_lt_nan a := by rintro (h : F64.lt a .nan = true); cases a <;> cases h
  not_nan_le a := by rintro (h : F64.le .nan a = true); cases h
  not_le_nan a := by rintro (h : F64.le a .nan = true); cases a <;> cases h
  sqrt_nan := rfl
  fabs_nan := rfl

theorem poisons_of {ρ ω : Type} {batch : (Nat → F64) → List ρ → M (Ret × List ω)} {o : Nat → F64} {s : Nat} {val : (Nat → ρ) → Nat → ω}
    {missing : ρ → Prop} {lost : ω → Prop} {d : Nat} (hc : Computes batch o s val)
    (h : ∀ x i j, missing (x i) → i + d ≤ j + s → lost (val x j)) : Poisons batch o s missing lost d :=
  fun x n => ⟨val x, hc x n, h x⟩

theorem recovers_of {ρ ω : Type} {batch : (Nat → F64) → List ρ → M (Ret × List ω)} {o : Nat → F64} {s w : Nat} {val : (Nat → ρ) → Nat → ω}
    (hc : Computes batch o s val) (h : ∀ x x' j, (∀ k, j + s ≤ k + w → x k = x' k) → val x j = val x' j) : Recovers batch o s w :=
  fun x x' i n e => ⟨val x, val x', hc x n, hc x' n, fun j hj => h x x' j fun k hk => e k (by omega)⟩

section
variable {R : Type} [Num R] [HasNan R]

theorem ema_nan {a : R} {x : Nat → R} {i : Nat} (h : x i = nan) {j : Nat} (hj : i ≤ j) : emaRec a x j = nan := by
  induction j, hj using Nat.le_induction with
  | base => cases i with
    | zero => exact h
    | succ i => simp [emaRec, h]
  | succ j _ ih => simp [emaRec, ih]

theorem slide_nan {p : Nat} {x : Nat → R} {i : Nat} (h : x i = nan) {j : Nat} (hj : i < j) : slide x p j = nan := by
  induction j, hj using Nat.le_induction with
  | base => simp [slide, h]
  | succ j _ ih => simp [slide, ih]

theorem slideS_nan {p : Nat} {x : Nat → R} {i : Nat} (h : x i = nan) {j : Nat} (hj : i < j) : slideS x p j = nan := by
  induction j, hj using Nat.le_induction with
  | base => simp [slideS, h]
  | succ j _ ih => simp [slideS, ih]

theorem sumTo_nan {x : Nat → R} {i p : Nat} (h : x i = nan) (hj : i < p) : sumTo x p = nan := by
  induction p, hj using Nat.le_induction with
  | base => simp [sumTo, h]
  | succ j _ ih => simp [sumTo, ih]

theorem wilders_nan {p : Nat} {x : Nat → R} {i : Nat} (h : x i = nan) {j : Nat} (hp : 1 ≤ p) (hj : i ≤ j + (p - 1)) :
    wildersRec p x j = nan := by
  induction j with
  | zero => simp [wildersRec, sumTo_nan h (show i < p by omega)]
  | succ j ih =>
    rcases Nat.eq_or_lt_of_le hj with e | l
    · have e : i = j + p := by omega
      subst e
      simp [wildersRec, h]
    · simp [wildersRec, ih (by omega)]

theorem demaE1_nan {a a1 : R} {x : Nat → R} {i : Nat} (h : x i = nan) {j : Nat} (hj : i < j) : demaE1 a a1 x j = nan := by
  induction j, hj using Nat.le_induction with
  | base => simp [demaE1, h]
  | succ j _ ih => simp [demaE1, ih]

theorem wma_nan {p : Nat} {x : Nat → R} {i : Nat} (h : x i = nan) {j : Nat} (hj : i < j) : wmaSt p x j = (nan, nan) := by
  induction j, hj using Nat.le_induction with
  | base => simp [wmaSt, h]
  | succ j _ ih => simp [wmaSt, ih]

theorem dw_nan {p : Nat} {x : Nat → R} {i : Nat} (h : x i = nan) {j : Nat} (hj : i < j) : dwSt p x j = (nan, nan) := by
  induction j, hj using Nat.le_induction with
  | base => simp [dwSt, h]
  | succ j _ ih => simp [dwSt, ih]

theorem zlema_nan {a : R} {l : Nat} {x : Nat → R} {i : Nat} (h : x i = nan) {j : Nat} (hj : i < j) :
    zlemaRec a l x j = nan := by
  induction j, hj using Nat.le_induction with
  | base => simp [zlemaRec, h]
  | succ j _ ih => simp [zlemaRec, ih]

theorem demaE2_nan {z a a1 : R} {p : Nat} {x : Nat → R} {i : Nat} (h : x i = nan) {j : Nat} (hj : i < j) (hp : p - 1 < j) :
    demaE2 z a a1 p x j = nan := by
  obtain ⟨j, rfl⟩ : ∃ k, j = k + 1 := ⟨j - 1, by omega⟩
  simp [demaE2, show p - 1 ≤ j by omega, demaE1_nan (a := a) (a1 := a1) h hj]

theorem temaE3_nan {z a a1 : R} {p : Nat} {x : Nat → R} {i : Nat} (h : x i = nan) {j : Nat} (hj : i < j) (hp : (p - 1) * 2 < j) :
    temaE3 z a a1 p x j = nan := by
  obtain ⟨j, rfl⟩ : ∃ k, j = k + 1 := ⟨j - 1, by omega⟩
  simp [temaE3, show (p - 1) * 2 ≤ j by omega, demaE2_nan (z := z) (a := a) (a1 := a1) (p := p) h hj (by omega)]

theorem trixE2_nan {a : R} {p : Nat} {x : Nat → R} {i : Nat} (h : x i = nan) {j : Nat} (hj : i ≤ j) (hp : p - 1 ≤ j) (h0 : 1 ≤ j) :
    trixE2 a p x j = nan := by
  obtain ⟨j, rfl⟩ : ∃ k, j = k + 1 := ⟨j - 1, by omega⟩
  have e := ema_nan (a := a) h hj
  by_cases c : j + 1 = p - 1
  · rw [trixE2, if_pos c, e]
  · rw [trixE2, if_neg c, if_pos (by omega), e]; simp

theorem trixE3_nan {a : R} {p : Nat} {x : Nat → R} {i : Nat} (h : x i = nan) {j : Nat} (hj : i ≤ j) (hp : p * 2 - 2 ≤ j) (h0 : 1 ≤ j)
    (h1 : p - 1 < j) : trixE3 a p x j = nan := by
  obtain ⟨j, rfl⟩ : ∃ k, j = k + 1 := ⟨j - 1, by omega⟩
  have e := trixE2_nan (a := a) (p := p) h hj (by omega) h0
  by_cases c : j + 1 = p * 2 - 2
  · rw [trixE3, if_pos h1, if_pos c, e]
  · rw [trixE3, if_pos h1, if_neg c, if_pos (by omega), e]; simp

theorem macdSig_nan {p q r : Nat} {x : Nat → R} {i : Nat} (h : x i = nan) {j : Nat} (hj : i ≤ j + (q - 1)) :
    macdSig p q r x j = nan := by
  have e : ∀ k, i ≤ k → macdLine p q x k = nan := fun k hk => by simp [macdLine, ema_nan h hk]
  cases j with
  | zero => simp [macdSig, e (q - 1) (by omega)]
  | succ j => simp [macdSig, e _ hj]

theorem rmta_nan {b : R} {off : Nat} {x : Nat → R} {i : Nat} (h : x i = nan) {j : Nat} (hj : i < j + off) (h1 : 1 ≤ off ∨ 1 ≤ j) (ho : off ≤ 1) :
    rmtaSt b off x j = (nan, nan) := by
  induction j with
  | zero => have e : i = 0 := by omega
            subst e; simp [rmtaSt, h]
  | succ j ih =>
    rcases Nat.eq_or_lt_of_le (show i ≤ off + j by omega) with e | l
    · simp [rmtaSt, ← e, h]
    · have := ih (by omega) (by omega)
      simp [rmtaSt, this]

theorem mom_nan {p : Nat} {x : Nat → R} {i : Nat} (h : x i = nan) {j : Nat} (hj : i < j) : mom x p j = (nan, nan) := by
  simp [mom, slide_nan h hj, slide_nan (x := fun k => x k * x k) (i := i) (by simp [h]) hj]

theorem slideT_nan {s p : Nat} {x : Nat → R} {i : Nat} (h : x i = nan) {j : Nat} (hj : i < j) (hs : p - s ≤ i) : slideT x s p j = nan := by
  induction j, hj using Nat.le_induction with
  | base => simp [slideT, h, hs]
  | succ j _ ih => simp [slideT, ih]

theorem lr_nan {p : Nat} (hp : 1 ≤ p) {x : Nat → R} {i : Nat} (h : x i = nan) {j : Nat} (hj : i < j + (p - 1)) : lrS x p j = (nan, nan) := by
  induction j with
  | zero =>
    have : ∀ m, i < m → trXY x m = (nan, nan) := fun m hm => by
      induction m, hm using Nat.le_induction with
      | base => simp [trXY, h]
      | succ m _ ih => simp [trXY, ih]
    exact this _ (by omega)
  | succ j ih =>
    rcases Nat.eq_or_lt_of_le (show i ≤ j + p - 1 by omega) with e | l
    · simp [lrS, ← e, h]
    · simp [lrS, ih (by omega)]

theorem lrXY_nan {p : Nat} (hp : 1 ≤ p) {x : Nat → R} {i : Nat} (h : x i = nan) {j : Nat} (hj : i ≤ j + (p - 1)) :
    lrXY x p j = nan ∧ lrY x p j = nan := by
  rcases Nat.eq_or_lt_of_le (show i ≤ j + p - 1 by omega) with e | l
  · simp [lrXY, lrY, ← e, h]
  · simp [lrXY, lrY, lr_nan hp h (show i < j + (p - 1) by omega)]

theorem lrB_nan {p : Nat} (hp : 1 ≤ p) {x : Nat → R} {i : Nat} (h : x i = nan) {j : Nat} (hj : i ≤ j + (p - 1)) :
    lrB x p j = nan ∧ lrA x p j = nan := by
  obtain ⟨h1, h2⟩ := lrXY_nan hp h hj
  simp [lrA, lrB, h1, h2]

/-- Filters whose newest output is part of the next: a NaN stays. -/
theorem yVal_nan {F : R → List R → List R → R} (h0 : ∀ xs ys, F nan xs ys = nan) (h1 : ∀ v xs ys, F v xs (nan :: ys) = nan)
    {x : Nat → R} {i : Nat} (h : x i = nan) {j : Nat} (hj : i ≤ j) : yVal F x j = nan := by
  induction j, hj using Nat.le_induction with
  | base => simp [yVal, h, h0]
  | succ j _ ih =>
    rw [yVal, yPast, show F (x j) (Spec.past x j) (yPast F x j) = nan from ih]
    exact h1 _ _ _

theorem sumTo_congr' {f g : Nat → R} {p : Nat} (h : ∀ k, k < p → f k = g k) : sumTo f p = sumTo g p := by
  induction p with
  | zero => rfl
  | succ p ih => simp [sumTo, ih fun k hk => h k (by omega), h p (by omega)]


/-! ### The values of single indicators -/

theorem trend_lost {p : Nat} (hp : 1 ≤ p) {x : Nat → R} {i j : Nat} (f : R) (h : x i = nan) (hj : i ≤ j + (p - 1)) :
    lrA x p j + lrB x p j * f = nan := by
  obtain ⟨h1, h2⟩ := lrB_nan hp h hj
  rw [h1, h2, nan_add]

theorem fosc_lost {p : Nat} (hp : 1 ≤ p) {x : Nat → R} {i j : Nat} (h : x i = nan) (hj : i ≤ j + p) :
    foscOut (x (j + p)) (foscT x p (j + 1)) = nan := by
  rcases Nat.eq_or_lt_of_le hj with e | l
  · rw [← e, h]; simp [foscOut]
  · obtain ⟨h1, h2⟩ := lrB_nan hp h (show i ≤ j + (p - 1) by omega)
    simp [foscOut, foscT, h1, h2]

theorem stat_lost {p : Nat} (hp : 1 ≤ p) {x : Nat → R} {i j : Nat} (s : R) (h : x i = nan) (hj : i ≤ j + (p - 1)) :
    momVar s (mom x p (j + p)) = nan ∧ momSd s (mom x p (j + p)) = nan := by
  simp [mom_nan h (show i < j + p by omega), momVar, momSd]

theorem bbands_lost {p : Nat} (hp : 1 ≤ p) {x : Nat → R} {i j : Nat} (k s : R) (h : x i = nan) (hj : i ≤ j + (p - 1)) :
    bbandsOut k s (mom x p (j + p)) = ⟨nan, nan, nan⟩ := by
  simp [mom_nan h (show i < j + p by omega), momVar, bbandsOut]

theorem md_lost {p : Nat} (hp : 1 ≤ p) {x : Nat → R} {i j : Nat} (s : R) (h : x i = nan) (hj : i ≤ j + (p - 1)) :
    mdAcc x p j * s = nan := by
  have : mdAcc x p j = nan := sumTo_nan (i := 0) (by simp [slide_nan h (show i < j + p by omega)]) (by omega)
  rw [this, nan_mul]

theorem chg_nan {x : Nat → R} {i : Nat} (h : x i = nan) : chgSig x i = nan := by simp [chgSig, h]

theorem volatility_lost {p : Nat} (hp : 1 ≤ p) {x : Nat → R} {i j : Nat} (s t : R) (h : x i = nan) (hj : i + 1 ≤ j + p) :
    CMath.sqrt (momVar s (mom (chgSig x) p (j + p))) * t = nan := by
  simp [mom_nan (chg_nan h) (show i < j + p by omega), momVar]

theorem wmaVal_lost {p : Nat} (hp : 1 ≤ p) {x : Nat → R} {i j : Nat} (h : x i = nan) (hj : i ≤ j + (p - 1)) : wmaVal p x j = nan := by
  rcases Nat.eq_or_lt_of_le hj with e | l
  · simp [wmaVal, ← e, h]
  · simp [wmaVal, wma_nan h l]

theorem dwF_lost {p : Nat} {x : Nat → R} {i j : Nat} (d : R) (h : x i = nan) (hj : i ≤ j + (p - 1)) : dwF p d x j = nan := by
  rcases Nat.eq_or_lt_of_le hj with e | l
  · simp [dwF, ← e, h]
  · simp [dwF, dw_nan h l]

theorem dwma_lost {p : Nat} {x : Nat → R} {i j : Nat} (d : R) (h : x i = nan) (hj : i ≤ j + 2 * (p - 1)) : dwF p d (dwF p d x) j = nan :=
  dwF_lost (i := j + (p - 1)) d (dwF_lost d h (by omega)) (le_refl _)

theorem lma_lost {p : Nat} {x : Nat → R} {i j : Nat} (d e : R) (h : x i = nan) (hj : i ≤ j + (p - 1)) :
    lmaVal p (· / d) (· / e) x j = nan := by
  rcases Nat.eq_or_lt_of_le hj with e | l
  · simp [lmaVal, ← e, h]
  · simp [lmaVal, dw_nan h l]

theorem hma_lost {p s : Nat} (hp : 2 ≤ p) (hs : 1 ≤ s) {x : Nat → R} {i j : Nat} (h : x i = nan) (hj : i ≤ j + (p + s - 2)) : hmaVal p s x j = nan := by
  have e : hmaD p x (j + (s - 1)) = nan := by
    simp only [hmaD]
    rw [wmaVal_lost (p := p) (by omega) h (show i ≤ j + (s - 1) + (p - 1) by omega), sub_nan]
  simp [hmaVal, e]

theorem ppo_lost {x : Nat → R} {i j : Nat} (a b : R) (h : x i = nan) (hj : i ≤ j + 1) :
    (let d := emaRec a x (j + 1) - emaRec b x (j + 1)
     if d == c! 0 then c! 0 else c! 100 * d / emaRec b x (j + 1)) = nan := by
  simp [ema_nan (a := a) h hj, ema_nan (a := b) h hj]

theorem trix_lost {p : Nat} (hp : 1 ≤ p) {x : Nat → R} {i j : Nat} (a : R) (h : x i = nan) (hj : i ≤ j + (p * 3 - 2)) :
    (let e := trixE3 a p x
     if e (j + (p * 3 - 2)) == c! 0 then c! 0
     else (e (j + (p * 3 - 2)) - e (j + (p * 3 - 2) - 1)) / e (j + (p * 3 - 2)) * c! 100) = nan := by
  simp [trixE3_nan (a := a) (p := p) h hj (by omega) (by omega) (by omega)]

theorem rmta_lost {p : Nat} (hp : 1 ≤ p) {x : Nat → R} {i j : Nat} (b : R) (h : x i = nan) (hj : i ≤ j + (p - 1)) :
    (rmtaSt b (if p = 1 then 0 else 1) x (j + p - (if p = 1 then 0 else 1))).2 = nan := by
  rw [rmta_nan h (by split <;> omega) (by split <;> omega) (by split <;> omega)]

theorem vosc_lost {s p : Nat} (hp : 1 ≤ p) {x : Nat → R} {i j : Nat} (a b : R) (h : x i = nan) (hj : i ≤ j + (p - 1)) :
    voscOut (slideT x s p (j + p) * a) (slide x p (j + p) * b) = nan := by
  simp [voscOut, slide_nan h (show i < j + p by omega)]

theorem mg_lost {n : R} {x : Nat → R} {i j : Nat} (h : x i = nan) (hj : i ≤ j) : mgRec n x j = nan := by
  induction j, hj using Nat.le_induction with
  | base => cases i with
    | zero => exact h
    | succ i => simp [mgRec, h]
  | succ j _ ih => simp [mgRec, ih]

theorem t3_lost {p v : R} {x : Nat → R} {i j : Nat} (h : x i = nan) (hj : i ≤ j) : t3Traj p v x j = t3Init nan := by
  induction j, hj using Nat.le_induction with
  | base => cases i with
    | zero => simp [t3Traj, h]
    | succ i => simp [t3Traj, t3Step, gdStep, t3Init, h]
  | succ j _ ih => simp [t3Traj, ih, t3Step, gdStep, t3Init]

theorem ehma_lost {a b c : R} {x : Nat → R} {i j : Nat} (h : x i = nan) (hj : i ≤ j) :
    ehmaRec (ehmaStep a) (ehmaStep b) (ehmaStep c) x j = ⟨nan, nan, nan⟩ := by
  induction j, hj using Nat.le_induction with
  | base => cases i with
    | zero => simp [ehmaRec, ehmaFirst, h]
    | succ i => simp [ehmaRec, ehmaStep, h]
  | succ j _ ih => simp [ehmaRec, ehmaStep, ih]

theorem gf1_lost {B A : R} {x : Nat → R} {i j : Nat} (h : x i = nan) (hj : i ≤ j) : yVal (gf1F B A) x j = nan :=
  yVal_nan (by simp [gf1F]) (by simp [gf1F]) h hj
theorem gf2_lost {B A A' : R} {x : Nat → R} {i j : Nat} (h : x i = nan) (hj : i ≤ j) : yVal (gf2F B A A') x j = nan :=
  yVal_nan (by simp [gf2F]) (by simp [gf2F]) h hj
theorem gf3_lost {B : R} {x : Nat → R} {i j : Nat} (h : x i = nan) (hj : i ≤ j) : yVal (gf3F B) x j = nan :=
  yVal_nan (by simp [gf3F]) (by simp [gf3F]) h hj
theorem ss_lost {x : Nat → R} {i j : Nat} (h : x i = nan) (hj : i ≤ j) : yVal ssF x j = nan :=
  yVal_nan (by simp [ssF]) (by simp [ssF]) h hj
theorem roof_lost {x : Nat → R} {i j : Nat} (h : x i = nan) (hj : i ≤ j) : yVal ssF (yVal roofF x) j = nan :=
  ss_lost (yVal_nan (by simp [roofF]) (by simp [roofF]) h hj) (le_refl _)
theorem lf_lost {g : R} {x : Nat → R} {i j : Nat} (h : x i = nan) (hj : i ≤ j) : lfY g x j = nan := by
  have : lfL0 g x j = nan := yVal_nan (by simp [lf0F]) (by simp [lf0F]) h hj
  simp [lfY, this]
theorem rema_lost {o : Nat → R} {x : Nat → R} {i j : Nat} (h : x i = nan) (hj : i ≤ j) : remaY o x j = nan :=
  yVal_nan (fun _ ys => by rcases ys with _ | ⟨a, _ | ⟨b, t⟩⟩ <;> simp [remaF]) (fun v _ ys => by rcases ys with _ | ⟨b, t⟩ <;> simp [remaF]) h hj

theorem kama_lost {p : Nat} {x : Nat → R} {i j : Nat} (h : x i = nan) (h1 : p - 1 ≤ i) (hj : i ≤ j + (p - 1)) (hp : 1 ≤ p) : kamaRec p x j = nan := by
  induction j with
  | zero => have e : i = p - 1 := by omega
            subst e; simpa [kamaRec] using h
  | succ j ih =>
    rcases Nat.eq_or_lt_of_le (show i ≤ j + p by omega) with e | l
    · simp [kamaRec, ← e, h]
    · simp [kamaRec, ih (by omega)]

/-! ### Bars -/

theorem tr_lost {x : Nat → HLC R} {i : Nat} (h : (x i).high = nan ∨ (x i).low = nan) : trSig x i = nan := by
  cases i with
  | zero => rcases h with h | h <;> simp [trSig, h]
  | succ i => rcases h with h | h <;> simp [trSig, trueRange, h]

theorem natr_lost {p : Nat} (hp : 1 ≤ p) {x : Nat → HLC R} {i j : Nat} (c : R) (h : (x i).high = nan ∨ (x i).low = nan) (hj : i ≤ j + (p - 1)) :
    natrOut (wildersRec p (trSig x) j) c = nan := by
  simp [natrOut, wilders_nan (tr_lost h) hp hj]

theorem ad_lost {x : Nat → HLCV R} {i j : Nat} (h : (x i).high = nan ∨ (x i).low = nan) (hj : i < j) : adRec x j = nan := by
  induction j, hj using Nat.le_induction with
  | base => rcases h with h | h <;> simp [adRec, adStep, h]
  | succ j _ ih => simp [adRec, adStep, ih]

theorem vwma_lost {p : Nat} (hp : 1 ≤ p) {x : Nat → CV R} {i j : Nat} (h : (x i).close = nan ∨ (x i).volume = nan) (hj : i ≤ j + (p - 1)) :
    (let s := slide (fun i => (x i).close * (x i).volume) p (j + p)
     if s == c! 0 then c! 0 else s / slide (fun i => (x i).volume) p (j + p)) = nan := by
  have : slide (fun i => (x i).close * (x i).volume) p (j + p) = nan := slide_nan (i := i) (by rcases h with h | h <;> simp [h]) (by omega)
  simp [this]

theorem fi_lost {a : R} {f : Nat → R} {i j : Nat} (h : f i = nan) (hj : i ≤ j) : fiRec a f j = nan := by
  induction j, hj using Nat.le_induction with
  | base => cases i with
    | zero => simp [fiRec, h]
    | succ i => simp [fiRec, h]
  | succ j _ ih => simp [fiRec, ih]

theorem fiSig_lost {x : Nat → CV R} {i : Nat} (h : (x i).close = nan) : fiSig x i = nan := by simp [fiSig, h]

theorem kc_lost {a m : R} {x : Nat → HLC R} {i j : Nat} (h : (x i).high = nan ∨ (x i).low = nan ∨ (x i).close = nan) (hj : i ≤ j) :
    (kcVal a m x j).lower = nan ∧ (kcVal a m x j).upper = nan := by
  rcases h with h | h | h
  · have : kcTr x i = nan := by cases i <;> simp [kcTr, stdMax, h]
    simp [kcVal, kcOut, ema_nan (a := a) this hj]
  · have : kcTr x i = nan := by cases i <;> simp [kcTr, stdMin, h]
    simp [kcVal, kcOut, ema_nan (a := a) this hj]
  · simp [kcVal, kcOut, ema_nan (a := a) (x := fun k => (x k).close) (i := i) h hj]

theorem dirUp_lost {x : Nat → HL R} {i : Nat} (h : (x i).high = nan) : dirUp x i = nan := by
  simp only [dirUp, dirSig, h, sub_nan, calcDirection, not_nan_lt, not_lt_nan, if_false]
  split <;> simp
theorem dirDown_lost {x : Nat → HL R} {i : Nat} (h : (x i).low = nan) : dirDown x i = nan := by
  simp only [dirDown, dirSig, h, nan_sub, calcDirection, not_nan_lt, not_lt_nan, if_false]
  split <;> simp

theorem wSum_lost {p : Nat} {d : Nat → R} {i j : Nat} (h : d i = nan) (hj : i < j + (p - 1)) : wSum p d j = nan := by
  induction j with
  | zero => exact sumTo_nan h (by omega)
  | succ j ih =>
    rcases Nat.eq_or_lt_of_le (show i ≤ j + (p - 1) by omega) with e | l
    · simp [wSum, ← e, h]
    · simp [wSum, ih l]

/-! ### Windows -/

theorem hwmaSum_congr {p i i' : Nat} {x x' : Nat → R} : ∀ m, (∀ k, k < m → x (i - k) = x' (i' - k)) → hwmaSum p x i m = hwmaSum p x' i' m
  | 0, _ => rfl
  | m + 1, h => by simp [hwmaSum, hwmaSum_congr m fun k hk => h k (by omega), h m (by omega)]

end
end Verif.Missing
