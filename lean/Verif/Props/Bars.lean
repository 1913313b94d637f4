/-
C10 (bar transforms), C24 (lag, mom, roc, rocr, decay, edecay), C25 (crossany, crossover).
-/
import Verif.Proof.Simple
import Verif.Core.RatInst
import Mathlib.Tactic.Ring
import Mathlib.Tactic.FieldSimp
import Mathlib.Tactic.Linarith

namespace Verif

section Any
variable {R : Type} [Num R]

/-! Any arithmetic: one value per bar, no undefined behaviour, causal. -/

theorem avgprice_contract (o : Nat → R) : Contract start0 avgpriceBatch o 0 := (avgprice_run o).contract rfl
theorem medprice_contract (o : Nat → R) : Contract start0 medpriceBatch o 0 := (medprice_run o).contract rfl
theorem typprice_contract (o : Nat → R) : Contract start0 typpriceBatch o 0 := (typprice_run o).contract rfl
theorem wcprice_contract (o : Nat → R) : Contract start0 wcpriceBatch o 0 := (wcprice_run o).contract rfl
theorem bop_contract (o : Nat → R) : Contract start0 bopBatch o 0 := (bop_run o).contract rfl
theorem marketfi_contract (o : Nat → R) : Contract start0 marketfiBatch o 0 := (marketfi_run o).contract rfl
theorem emv_contract (o : Nat → R) : Contract start1 emvBatch o 1 := (emv_run o).contract rfl
theorem crossany_contract (o : Nat → R) : Contract start1 crossanyBatch o 1 := (crossany_run o).contract rfl
theorem crossover_contract (o : Nat → R) : Contract start1 crossoverBatch o 1 := (crossover_run o).contract rfl

theorem lag_contract (o : Nat → R) (p : Nat) (hc : toInt (o 0) = .ok (p : Int)) :
    Contract startPeriod lagBatch o p := (lag_run o p hc).contract hc
theorem mom_contract (o : Nat → R) (p : Nat) (hc : toInt (o 0) = .ok (p : Int)) (hp : 1 ≤ p) :
    Contract startPeriod momBatch o p := (mom_run o p hc hp).contract hc
theorem roc_contract (o : Nat → R) (p : Nat) (hc : toInt (o 0) = .ok (p : Int)) (hp : 1 ≤ p) :
    Contract startPeriod rocBatch o p := (roc_run o p hc hp).contract hc
theorem rocr_contract (o : Nat → R) (p : Nat) (hc : toInt (o 0) = .ok (p : Int)) (hp : 1 ≤ p) :
    Contract startPeriod rocrBatch o p := (rocr_run o p hc hp).contract hc
/-- decay/edecay accept every option that converts to an `int` (even 0 and negative ones). -/
theorem decay_contract (o : Nat → R) (p : Int) (hc : toInt (o 0) = .ok p) :
    Contract start0 decayBatch o 0 := (decay_run o p hc).contract rfl
theorem edecay_contract (o : Nat → R) (p : Int) (hc : toInt (o 0) = .ok p) :
    Contract start0 edecayBatch o 0 := (edecay_run o p hc).contract rfl

theorem lag_refuses (o : Nat → R) (p : Int) (hc : toInt (o 0) = .ok p) (hp : p < 0) :
    Refuses lagBatch o := by intro xs; simp [lagBatch, hc, hp]
theorem mom_refuses (o : Nat → R) (p : Int) (hc : toInt (o 0) = .ok p) (hp : p < 1) :
    Refuses momBatch o := by intro xs; simp [momBatch, hc, hp]
theorem roc_refuses (o : Nat → R) (p : Int) (hc : toInt (o 0) = .ok p) (hp : p < 1) :
    Refuses rocBatch o := by intro xs; simp [rocBatch, hc, hp]
theorem rocr_refuses (o : Nat → R) (p : Int) (hc : toInt (o 0) = .ok p) (hp : p < 1) :
    Refuses rocrBatch o := by intro xs; simp [rocrBatch, hc, hp]

/-- lag: output `j` is input `j`, bit for bit; with the first output at bar `period`. -/
theorem lag_value (o : Nat → R) (p : Nat) (hc : toInt (o 0) = .ok (p : Int)) :
    Computes lagBatch o p (fun x j => x j) := lag_run o p hc
/-- mom: value now minus value `period` bars ago. -/
theorem mom_value (o : Nat → R) (p : Nat) (hc : toInt (o 0) = .ok (p : Int)) (hp : 1 ≤ p) :
    Computes momBatch o p (fun x j => x (j + p) - x j) := mom_run o p hc hp

end Any

section Field
variable {R : Type} [Field R] [LinearOrder R] [IsStrictOrderedRing R] [CMath R]

theorem avgprice_value (o : Nat → R) : Computes avgpriceBatch o 0
    (fun x j => ((x j).open + (x j).high + (x j).low + (x j).close) / 4) :=
  (avgprice_run o).congr fun x j => by simp; ring
theorem medprice_value (o : Nat → R) : Computes medpriceBatch o 0
    (fun x j => ((x j).high + (x j).low) / 2) := (medprice_run o).congr fun x j => by simp; ring
theorem typprice_value (o : Nat → R) : Computes typpriceBatch o 0
    (fun x j => ((x j).high + (x j).low + (x j).close) / 3) :=
  (typprice_run o).congr fun x j => by simp; ring
theorem wcprice_value (o : Nat → R) : Computes wcpriceBatch o 0
    (fun x j => ((x j).high + (x j).low + 2 * (x j).close) / 4) :=
  (wcprice_run o).congr fun x j => by simp; ring

/-- bop: (close - open) / (high - low), and 0 for a bar without positive range. -/
theorem bop_value (o : Nat → R) : Computes bopBatch o 0
    (fun x j => if (x j).low < (x j).high then ((x j).close - (x j).open) / ((x j).high - (x j).low) else 0) :=
  (bop_run o).congr fun x j => by
    by_cases h : (x j).low < (x j).high
    · simp [h]
    · simp [h, not_lt.1 h]

/-- On proper bars bop lies in [-1, 1]. -/
theorem bop_range (o : Nat → R) (xs : List (OHLC R)) (out : List R) (h : bopBatch o xs = .ok (.okay, out))
    (hbar : ∀ r ∈ xs, r.low ≤ r.open ∧ r.open ≤ r.high ∧ r.low ≤ r.close ∧ r.close ≤ r.high) :
    ∀ v ∈ out, -1 ≤ v ∧ v ≤ 1 := by
  obtain ⟨x, hx⟩ := exists_pre xs
  rw [hx, bop_value o x] at h
  simp only [Except.ok.injEq, Prod.mk.injEq, true_and, Nat.sub_zero] at h
  subst h
  intro v hv
  simp only [pre, List.mem_map, List.mem_range] at hv
  obtain ⟨i, hi, rfl⟩ := hv
  have hb := hbar (x i) (by rw [hx]; simp only [pre, List.mem_map, List.mem_range]; exact ⟨i, hi, rfl⟩)
  split
  · rename_i hlt
    have hpos : 0 < (x i).high - (x i).low := by linarith
    rw [le_div_iff₀ hpos, div_le_iff₀ hpos]
    constructor <;> linarith [hb.1, hb.2.1, hb.2.2.1, hb.2.2.2]
  · constructor <;> linarith

theorem marketfi_value (o : Nat → R) : Computes marketfiBatch o 0
    (fun x j => if (x j).volume = 0 then 0 else ((x j).high - (x j).low) / (x j).volume) :=
  (marketfi_run o).congr fun x j => by simp

/-- emv: change of the midpoint over the box ratio (volume/10000)/(high-low); 0 if the midpoint is unchanged. -/
theorem emv_value (o : Nat → R) : Computes emvBatch o 1 (fun x j =>
    let mid := fun i => ((x i).high + (x i).low) / 2
    let d := mid (j + 1) - mid j
    if d = 0 then 0 else d / ((x (j + 1)).volume / 10000 / ((x (j + 1)).high - (x (j + 1)).low))) :=
  (emv_run o).congr fun x j => by
    have hm : ∀ i, midpt (x i) = ((x i).high + (x i).low) / 2 := by intro i; simp [midpt]; ring
    simp [hm]

theorem roc_value (o : Nat → R) (p : Nat) (hc : toInt (o 0) = .ok (p : Int)) (hp : 1 ≤ p) :
    Computes rocBatch o p (fun x j => if x j = 0 then 0 else (x (j + p) - x j) / x j) :=
  (roc_run o p hc hp).congr fun x j => by simp
theorem rocr_value (o : Nat → R) (p : Nat) (hc : toInt (o 0) = .ok (p : Int)) (hp : 1 ≤ p) :
    Computes rocrBatch o p (fun x j => if x j = 0 then 0 else x (j + p) / x j) :=
  (rocr_run o p hc hp).congr fun x j => by simp

/-- crossover: 1 exactly when `a` is above `b` now and was not above at the previous bar, else 0. -/
theorem crossover_value (o : Nat → R) : Computes crossoverBatch o 1 (fun x j =>
    if (x (j + 1)).b < (x (j + 1)).a ∧ ¬ (x j).b < (x j).a then 1 else 0) :=
  (crossover_run o).congr fun x j => by simp [ofBool]

/-- crossany: 1 exactly when one of `a` over `b`, `b` over `a` is a crossover, else 0. -/
theorem crossany_value (o : Nat → R) : Computes crossanyBatch o 1 (fun x j =>
    if ((x (j + 1)).b < (x (j + 1)).a ∧ ¬ (x j).b < (x j).a) ∨
       ((x (j + 1)).a < (x (j + 1)).b ∧ ¬ (x j).a < (x j).b) then 1 else 0) :=
  (crossany_run o).congr fun x j => by simp [ofBool]

/-- crossany does not depend on the order of its inputs. -/
theorem crossany_symm (o : Nat → R) (xs : List (AB R)) :
    crossanyBatch o xs = crossanyBatch o (xs.map fun r => ⟨r.b, r.a⟩) := by
  obtain ⟨x, hx⟩ := exists_pre xs
  have h2 : xs.map (fun r => (⟨r.b, r.a⟩ : AB R)) = pre (fun i => ⟨(x i).b, (x i).a⟩) xs.length := by
    rw [hx]; simp [pre]
  rw [h2, hx, crossany_value o x, crossany_value o _, length_pre]
  congr 3
  funext j
  simp only [or_comm]

theorem decayVal_spec (x : Nat → R) (s : R) (j : Nat) :
    (∀ k, k ≤ j → x k - ((j - k : Nat) : R) * s ≤ decayVal x s j) ∧
    ∃ k, k ≤ j ∧ decayVal x s j = x k - ((j - k : Nat) : R) * s := by
  induction j with
  | zero => exact ⟨fun k hk => by simp [show k = 0 by omega, decayVal], 0, le_rfl, by simp [decayVal]⟩
  | succ j ih =>
    obtain ⟨h1, k0, hk0, h2⟩ := ih
    have e : ∀ k, k ≤ j → x k - ((j + 1 - k : Nat) : R) * s = x k - ((j - k : Nat) : R) * s - s := by
      intro k hk; rw [show j + 1 - k = (j - k) + 1 by omega]; push_cast; ring
    by_cases hlt : decayVal x s j - s < x (j + 1)
    · have hv : decayVal x s (j + 1) = x (j + 1) := by simp [decayVal, hlt]
      rw [hv]
      refine ⟨fun k hk => ?_, j + 1, le_rfl, by simp⟩
      rcases Nat.lt_or_ge k (j + 1) with hlt' | hge
      · rw [e k (by omega)]; linarith [h1 k (by omega)]
      · simp [show k = j + 1 by omega]
    · have hv : decayVal x s (j + 1) = decayVal x s j - s := by simp [decayVal, hlt]
      rw [hv]
      refine ⟨fun k hk => ?_, k0, by omega, by rw [e k0 hk0, h2]⟩
      rcases Nat.lt_or_ge k (j + 1) with hlt' | hge
      · rw [e k (by omega)]; linarith [h1 k (by omega)]
      · rw [show k = j + 1 by omega]; simp; linarith [not_lt.1 hlt]

/-- decay: every output is the greatest of the inputs so far, each lowered by `1/period` per bar since. -/
theorem decay_value (o : Nat → R) (p : Int) (hc : toInt (o 0) = .ok p) :
    ∃ val, Computes decayBatch o 0 val ∧ ∀ (x : Nat → R) j,
      (∀ k, k ≤ j → x k - ((j - k : Nat) : R) * (1 / (p : R)) ≤ val x j) ∧
      ∃ k, k ≤ j ∧ val x j = x k - ((j - k : Nat) : R) * (1 / (p : R)) :=
  ⟨_, decay_run o p hc, fun x j => by simpa using decayVal_spec x (c! 1 / (p : R)) j⟩

theorem edecayVal_spec (x : Nat → R) (s : R) (hs : 0 ≤ s) (j : Nat) :
    (∀ k, k ≤ j → x k * s ^ (j - k) ≤ edecayVal x s j) ∧
    ∃ k, k ≤ j ∧ edecayVal x s j = x k * s ^ (j - k) := by
  induction j with
  | zero => exact ⟨fun k hk => by simp [show k = 0 by omega, edecayVal], 0, le_rfl, by simp [edecayVal]⟩
  | succ j ih =>
    obtain ⟨h1, k0, hk0, h2⟩ := ih
    have e : ∀ k, k ≤ j → x k * s ^ (j + 1 - k) = x k * s ^ (j - k) * s := by
      intro k hk; rw [show j + 1 - k = (j - k) + 1 by omega, pow_succ]; ring
    by_cases hlt : edecayVal x s j * s < x (j + 1)
    · have hv : edecayVal x s (j + 1) = x (j + 1) := by simp [edecayVal, hlt]
      rw [hv]
      refine ⟨fun k hk => ?_, j + 1, le_rfl, by simp⟩
      rcases Nat.lt_or_ge k (j + 1) with hlt' | hge
      · rw [e k (by omega)]
        exact le_trans (mul_le_mul_of_nonneg_right (h1 k (by omega)) hs) hlt.le
      · simp [show k = j + 1 by omega]
    · have hv : edecayVal x s (j + 1) = edecayVal x s j * s := by simp [edecayVal, hlt]
      rw [hv]
      refine ⟨fun k hk => ?_, k0, by omega, by rw [e k0 hk0, h2]⟩
      rcases Nat.lt_or_ge k (j + 1) with hlt' | hge
      · rw [e k (by omega)]; exact mul_le_mul_of_nonneg_right (h1 k (by omega)) hs
      · rw [show k = j + 1 by omega]; simp; exact not_lt.1 hlt

/-- edecay, period ≥ 1: every output is the greatest of the inputs so far, each scaled by `1 - 1/period` per
bar since. -/
theorem edecay_value (o : Nat → R) (p : Nat) (hc : toInt (o 0) = .ok (p : Int)) (hp : 1 ≤ p) :
    ∃ val, Computes edecayBatch o 0 val ∧ ∀ (x : Nat → R) j,
      (∀ k, k ≤ j → x k * (1 - 1 / (p : R)) ^ (j - k) ≤ val x j) ∧
      ∃ k, k ≤ j ∧ val x j = x k * (1 - 1 / (p : R)) ^ (j - k) := by
  refine ⟨_, edecay_run o p hc, fun x j => ?_⟩
  have hs : (0 : R) ≤ 1 - 1 / (p : R) := by
    have : (1 : R) ≤ p := by exact_mod_cast hp
    rw [sub_nonneg, div_le_one (by linarith)]; exact this
  simpa using edecayVal_spec x _ hs j

end Field

/- Concrete runs and instances of the hypotheses. -/
example : toInt (opts [2] 0) = .ok ((2 : Nat) : Int) ∧ 1 ≤ 2 := by decide +kernel
example : typpriceBatch (opts []) [⟨3, 1, 2⟩, ⟨9, 3, 3⟩] = .ok (.okay, [2, 5]) := by decide +kernel
example : bopBatch (opts []) [⟨1, 3, 1, 2⟩, ⟨1, 1, 1, 1⟩] = .ok (.okay, [1/2, 0]) := by decide +kernel
example : ∀ r ∈ [(⟨1, 3, 1, 2⟩ : OHLC Rat), ⟨1, 1, 1, 1⟩],
    r.low ≤ r.open ∧ r.open ≤ r.high ∧ r.low ≤ r.close ∧ r.close ≤ r.high := by decide +kernel
example : emvBatch (opts []) [⟨3, 1, 5⟩, ⟨4, 2, 10000⟩] = .ok (.okay, [2]) := by decide +kernel
example : rocBatch (opts [2]) [2, 0, 3, 4] = .ok (.okay, [1/2, 0]) := by decide +kernel
example : lagBatch (opts [2]) [2, 0, 3, 4] = .ok (.okay, [2, 0]) := by decide +kernel
example : crossoverBatch (opts []) [⟨1, 2⟩, ⟨3, 2⟩, ⟨1, 2⟩] = .ok (.okay, [1, 0]) := by decide +kernel
example : crossanyBatch (opts []) [⟨1, 2⟩, ⟨3, 2⟩, ⟨1, 2⟩] = .ok (.okay, [1, 1]) := by decide +kernel
example : decayBatch (opts [2]) [5, 1, 1, 6] = .ok (.okay, [5, 9/2, 4, 6]) := by decide +kernel
example : edecayBatch (opts [2]) [8, 1, 1, 6] = .ok (.okay, [8, 4, 2, 6]) := by decide +kernel

end Verif
