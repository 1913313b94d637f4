/- Element-wise indicators and per-bar transforms: runs (helper lemmas). -/
import Verif.Model.Simple
import Verif.Proof.Contract

namespace Verif
set_option linter.unusedSectionVars false
variable {R : Type} [Num R]

theorem simple1_run (op : R → R) (o : Nat → R) :
    Computes (simple1 fun x => .ok (op x)) o 0 (fun x j => op (x j)) := by
  intro x N
  unfold simple1
  refine forUp_bind 0 N (fun i => pre (fun j => op (x j)) i) rfl (by simp) rfl (by omega) ?_ rfl
  intro i _ hi
  run_simp []
  rw [pre_snoc rfl rfl]

theorem simple1_error (op : R → M R) (o : Nat → R) (x : Nat → R) (N k : Nat) (hk : k < N) (v : Nat → R)
    (e : UB) (hv : ∀ i, i < k → op (x i) = .ok (v i)) (he : op (x k) = .error e) :
    simple1 op o (pre x N) = .error e := by
  unfold simple1
  simp only [length_pre]
  have h1 := forUp_nat (a := 0) (b := k) (f := fun i out => do wr N out (← op (← rd (pre x N) i)))
    (fun i => pre v i) (by omega) (by
      intro i _ hi
      run_simp [hv i hi]
      rw [pre_snoc rfl rfl])
  have h2 := iter_add (f := fun i out => do wr N out (← op (← rd (pre x N) i))) k (N - k) 0 []
  unfold forUp at h1 ⊢
  have e1 : ((k : Int) - (0 : Nat)).toNat = k := by omega
  have e2 : ((N : Int) - 0).toNat = k + (N - k) := by omega
  rw [e1] at h1
  rw [e2, h2]
  simp only [Nat.cast_zero, pre_zero] at h1
  rw [h1]
  obtain ⟨m, hm⟩ : ∃ m, N - k = m + 1 := ⟨N - k - 1, by omega⟩
  rw [hm]
  simp only [bind_ok, iter, Int.zero_add]
  run_simp [he]
  rfl

theorem simple2_run (op : R → R → R) (o : Nat → R) :
    Computes (simple2 op) o 0 (fun x j => op (x j).a (x j).b) := by
  intro x N
  unfold simple2
  refine forUp_bind 0 N (fun i => pre (fun j => op (x j).a (x j).b) i) rfl (by simp) rfl (by omega) ?_ rfl
  intro i _ hi
  run_simp []
  rw [pre_snoc rfl rfl]

theorem avgprice_run (o : Nat → R) :
    Computes avgpriceBatch o 0 (fun x j => let r := x j; (r.open + r.high + r.low + r.close) * (c! 1 / c! 4)) := by
  intro x N
  unfold avgpriceBatch
  refine forUp_bind 0 N (fun i => pre (fun j => let r := x j; (r.open + r.high + r.low + r.close) * (c! 1 / c! 4)) i) rfl (by simp) rfl
    (by omega) ?_ rfl
  intro i _ hi
  run_simp []
  rw [pre_snoc rfl rfl]

theorem medprice_run (o : Nat → R) :
    Computes medpriceBatch o 0 (fun x j => let r := x j; (r.high + r.low) * (c! 1 / c! 2)) := by
  intro x N
  unfold medpriceBatch
  refine forUp_bind 0 N (fun i => pre (fun j => let r := x j; (r.high + r.low) * (c! 1 / c! 2)) i) rfl (by simp) rfl
    (by omega) ?_ rfl
  intro i _ hi
  run_simp []
  rw [pre_snoc rfl rfl]

theorem typprice_run (o : Nat → R) :
    Computes typpriceBatch o 0 (fun x j => let r := x j; (r.high + r.low + r.close) * (c! 1 / c! 3)) := by
  intro x N
  unfold typpriceBatch
  refine forUp_bind 0 N (fun i => pre (fun j => let r := x j; (r.high + r.low + r.close) * (c! 1 / c! 3)) i) rfl (by simp) rfl
    (by omega) ?_ rfl
  intro i _ hi
  run_simp []
  rw [pre_snoc rfl rfl]

theorem wcprice_run (o : Nat → R) :
    Computes wcpriceBatch o 0 (fun x j => let r := x j; (r.high + r.low + r.close + r.close) * (c! 1 / c! 4)) := by
  intro x N
  unfold wcpriceBatch
  refine forUp_bind 0 N (fun i => pre (fun j => let r := x j; (r.high + r.low + r.close + r.close) * (c! 1 / c! 4)) i) rfl (by simp) rfl
    (by omega) ?_ rfl
  intro i _ hi
  run_simp []
  rw [pre_snoc rfl rfl]

theorem bop_run (o : Nat → R) :
    Computes bopBatch o 0 (fun x j => let r := x j;
      if r.high - r.low ≤ c! 0 then c! 0 else (r.close - r.open) / (r.high - r.low)) := by
  intro x N
  unfold bopBatch
  refine forUp_bind 0 N (fun i => pre (fun j => let r := x j;
      if r.high - r.low ≤ c! 0 then c! 0 else (r.close - r.open) / (r.high - r.low)) i) rfl (by simp) rfl
    (by omega) ?_ rfl
  intro i _ hi
  run_simp []
  split
  · rename_i h; rw [pre_snoc rfl (by simp [h])]
  · rename_i h; rw [pre_snoc rfl (by simp [h])]

theorem marketfi_run (o : Nat → R) :
    Computes marketfiBatch o 0 (fun x j => let r := x j;
      if r.volume == c! 0 then c! 0 else (r.high - r.low) / r.volume) := by
  intro x N
  unfold marketfiBatch
  simp only [length_pre]
  split
  · rename_i h; simp [show N = 0 by omega]
  refine forUp_bind 0 N (fun i => pre (fun j => let r := x j;
      if r.volume == c! 0 then c! 0 else (r.high - r.low) / r.volume) i) rfl (by simp) rfl
    (by omega) ?_ ?_
  · intro i _ hi
    run_simp []
    rw [pre_snoc rfl (by simp)]
  · run_simp [Nat.sub_zero]

/-- Midpoint of a bar as the code computes it. -/
def midpt (r : HLV R) : R := (r.high + r.low) * (c! 1 / c! 2)

theorem emv_run (o : Nat → R) :
    Computes emvBatch o 1 (fun x j =>
      if midpt (x (j + 1)) - midpt (x j) == c! 0 then c! 0
      else (midpt (x (j + 1)) - midpt (x j)) /
        ((x (j + 1)).volume / c! 10000 / ((x (j + 1)).high - (x (j + 1)).low))) := by
  intro x N
  unfold emvBatch
  simp only [length_pre]
  split
  · rename_i h; simp [show N - 1 = 0 by omega]
  run_simp []
  refine forUp_bind 1 N (fun i => (midpt (x (i - 1)), pre (fun j =>
      if midpt (x (j + 1)) - midpt (x j) == c! 0 then c! 0
      else (midpt (x (j + 1)) - midpt (x j)) /
        ((x (j + 1)).volume / c! 10000 / ((x (j + 1)).high - (x (j + 1)).low))) (i - 1))) rfl (by simp) rfl
    (by omega) ?_ ?_
  · intro i h1 hi
    run_simp []
    rw [pre_snoc (m := i + 1 - 1) (by omega) (by simp only [show i - 1 + 1 = i by omega]; rfl)]
    rfl
  · run_simp []

theorem crossany_run (o : Nat → R) :
    Computes crossanyBatch o 1 (fun x j => ofBool
      ((decide ((x (j + 1)).b < (x (j + 1)).a) && decide ((x j).a ≤ (x j).b)) ||
       (decide ((x (j + 1)).a < (x (j + 1)).b) && decide ((x j).b ≤ (x j).a)))) := by
  intro x N
  unfold crossanyBatch
  simp only [length_pre]
  by_cases hN : N = 0
  · subst hN; rfl
  refine forUp_bind 1 N (fun i => pre (fun j => ofBool
      ((decide ((x (j + 1)).b < (x (j + 1)).a) && decide ((x j).a ≤ (x j).b)) ||
       (decide ((x (j + 1)).a < (x (j + 1)).b) && decide ((x j).b ≤ (x j).a)))) (i - 1)) rfl (by simp) rfl
    (by omega) ?_ (by rfl)
  intro i h1 hi
  run_simp [show ((i : Int) - 1).toNat = i - 1 by omega]
  rw [pre_snoc (m := i + 1 - 1) (by omega) (by simp only [show i - 1 + 1 = i by omega])]

theorem crossover_run (o : Nat → R) :
    Computes crossoverBatch o 1 (fun x j => ofBool
      (decide ((x (j + 1)).b < (x (j + 1)).a) && decide ((x j).a ≤ (x j).b))) := by
  intro x N
  unfold crossoverBatch
  simp only [length_pre]
  by_cases hN : N = 0
  · subst hN; rfl
  refine forUp_bind 1 N (fun i => pre (fun j => ofBool
      (decide ((x (j + 1)).b < (x (j + 1)).a) && decide ((x j).a ≤ (x j).b))) (i - 1)) rfl (by simp) rfl
    (by omega) ?_ (by rfl)
  intro i h1 hi
  run_simp [show ((i : Int) - 1).toNat = i - 1 by omega]
  rw [pre_snoc (m := i + 1 - 1) (by omega) (by simp only [show i - 1 + 1 = i by omega])]

theorem lag_run (o : Nat → R) (p : Nat) (hc : toInt (o 0) = .ok (p : Int)) :
    Computes lagBatch o p (fun x j => x j) := by
  intro x N
  unfold lagBatch
  simp only [hc, startPeriod, bind_ok, length_pre]
  rw [if_neg (by omega)]
  split
  · rename_i h; simp [show N - p = 0 by omega]
  refine forUp_bind p N (fun i => pre (fun j => x j) (i - p)) rfl rfl (by simp)
    (by omega) ?_ ?_
  · intro i h1 hi
    run_simp []
    rw [pre_snoc (m := i + 1 - p) (by omega) (by try simp only [show i - p + p = i by omega])]
  · run_simp []

theorem mom_run (o : Nat → R) (p : Nat) (hc : toInt (o 0) = .ok (p : Int)) (hp : 1 ≤ p) :
    Computes momBatch o p (fun x j => x (j + p) - x j) := by
  intro x N
  unfold momBatch
  simp only [hc, startPeriod, bind_ok, length_pre]
  rw [if_neg (by omega)]
  split
  · rename_i h; simp [show N - p = 0 by omega]
  refine forUp_bind p N (fun i => pre (fun j => x (j + p) - x j) (i - p)) rfl rfl (by simp)
    (by omega) ?_ ?_
  · intro i h1 hi
    run_simp []
    rw [pre_snoc (m := i + 1 - p) (by omega) (by try simp only [show i - p + p = i by omega])]
  · run_simp []

theorem roc_run (o : Nat → R) (p : Nat) (hc : toInt (o 0) = .ok (p : Int)) (hp : 1 ≤ p) :
    Computes rocBatch o p (fun x j => if x j == c! 0 then c! 0 else (x (j + p) - x j) / x j) := by
  intro x N
  unfold rocBatch
  simp only [hc, startPeriod, bind_ok, length_pre]
  rw [if_neg (by omega)]
  split
  · rename_i h; simp [show N - p = 0 by omega]
  refine forUp_bind p N (fun i => pre (fun j => if x j == c! 0 then c! 0 else (x (j + p) - x j) / x j) (i - p)) rfl rfl (by simp)
    (by omega) ?_ ?_
  · intro i h1 hi
    run_simp []
    rw [pre_snoc (m := i + 1 - p) (by omega) (by try simp only [show i - p + p = i by omega])]
  · run_simp []

theorem rocr_run (o : Nat → R) (p : Nat) (hc : toInt (o 0) = .ok (p : Int)) (hp : 1 ≤ p) :
    Computes rocrBatch o p (fun x j => if x j == c! 0 then c! 0 else x (j + p) / x j) := by
  intro x N
  unfold rocrBatch
  simp only [hc, startPeriod, bind_ok, length_pre]
  rw [if_neg (by omega)]
  split
  · rename_i h; simp [show N - p = 0 by omega]
  refine forUp_bind p N (fun i => pre (fun j => if x j == c! 0 then c! 0 else x (j + p) / x j) (i - p)) rfl rfl (by simp)
    (by omega) ?_ ?_
  · intro i h1 hi
    run_simp []
    rw [pre_snoc (m := i + 1 - p) (by omega) (by try simp only [show i - p + p = i by omega])]
  · run_simp []

/-- The recurrence of `ti_decay` (any arithmetic). -/
def decayVal (x : Nat → R) (s : R) : Nat → R
  | 0 => x 0
  | i + 1 => let d := decayVal x s i - s; if d < x (i + 1) then x (i + 1) else d

theorem decay_run (o : Nat → R) (p : Int) (hc : toInt (o 0) = .ok p) :
    Computes decayBatch o 0 (fun x j => decayVal x (c! 1 / (p : R)) j) := by
  intro x N
  unfold decayBatch
  simp only [hc, bind_ok, length_pre]
  by_cases hN : N = 0
  · subst hN; rfl
  refine forUp_bind 0 1 (fun i => pre (decayVal x (c! 1 / (p : R))) i) rfl (by omega) rfl (by omega) ?_ ?_
  · intro i h1 hi
    run_simp []
    rw [pre_snoc rfl (by simp [show i = 0 by omega, decayVal])]
  refine forUp_bind 1 N (fun i => pre (decayVal x (c! 1 / (p : R))) i) (by omega) rfl rfl (by omega) ?_ ?_
  · intro i h1 hi
    obtain ⟨i, rfl⟩ : ∃ k, i = k + 1 := ⟨i - 1, by omega⟩
    run_simp [show (((i + 1 : Nat) : Int) - 1).toNat = i by omega]
    rw [pre_snoc rfl (by simp [decayVal])]
  · rfl

/-- The recurrence of `ti_edecay` (any arithmetic). -/
def edecayVal (x : Nat → R) (s : R) : Nat → R
  | 0 => x 0
  | i + 1 => let d := edecayVal x s i * s; if d < x (i + 1) then x (i + 1) else d

theorem edecay_run (o : Nat → R) (p : Int) (hc : toInt (o 0) = .ok p) :
    Computes edecayBatch o 0 (fun x j => edecayVal x (c! 1 - c! 1 / (p : R)) j) := by
  intro x N
  unfold edecayBatch
  simp only [hc, bind_ok, length_pre]
  by_cases hN : N = 0
  · subst hN; rfl
  refine forUp_bind 0 1 (fun i => pre (edecayVal x (c! 1 - c! 1 / (p : R))) i) rfl (by omega) rfl (by omega) ?_ ?_
  · intro i h1 hi
    run_simp []
    rw [pre_snoc rfl (by simp [show i = 0 by omega, edecayVal])]
  refine forUp_bind 1 N (fun i => pre (edecayVal x (c! 1 - c! 1 / (p : R))) i) (by omega) rfl rfl (by omega) ?_ ?_
  · intro i h1 hi
    obtain ⟨i, rfl⟩ : ∃ k, i = k + 1 := ⟨i - 1, by omega⟩
    run_simp [show (((i + 1 : Nat) : Int) - 1).toNat = i by omega]
    rw [pre_snoc rfl (by simp [edecayVal])]
  · rfl

end Verif
