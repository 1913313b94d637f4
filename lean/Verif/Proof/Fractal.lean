/- hurst, mesastoch, frama: the runs (helper lemmas). -/
import Verif.Model.Fractal
import Verif.Spec.Fractal
import Verif.Proof.Loop
import Verif.Proof.Chan
import Verif.Proof.Trail
import Verif.Proof.Cycle
import Verif.Proof.Sum
import Verif.Proof.Flow
import Verif.Proof.EmaField
import Verif.Props.Average
import Mathlib.Algebra.BigOperators.Intervals

set_option linter.unusedSectionVars false
set_option linter.unusedSimpArgs false
set_option linter.unusedVariables false

namespace Verif
open Spec

section Field
variable {R : Type} [Field R] [LinearOrder R] [IsStrictOrderedRing R] [CMath R]

/-! ### hurst -/

theorem winMax_grow (n : Nat) (f : Nat → R) : winMax (n + 2) f 0 = max (winMax (n + 1) f 0) (f (n + 1)) := by
  apply le_antisymm
  · obtain ⟨k, h1, h2, e⟩ := winMax_mem (n + 2) (by omega) f 0
    rw [e]
    rcases Nat.lt_or_ge k (n + 1) with h | h
    · exact le_max_of_le_left (le_winMax _ _ _ _ (by omega) (by omega))
    · rw [show k = n + 1 by omega]; exact le_max_right _ _
  · refine max_le ?_ (le_winMax _ _ _ _ (by omega) (by omega))
    obtain ⟨k, h1, h2, e⟩ := winMax_mem (n + 1) (by omega) f 0
    rw [e]; exact le_winMax _ _ _ _ (by omega) (by omega)
theorem winMin_grow (n : Nat) (f : Nat → R) : winMin (n + 2) f 0 = min (winMin (n + 1) f 0) (f (n + 1)) := by
  apply le_antisymm
  · refine le_min ?_ (winMin_le _ _ _ _ (by omega) (by omega))
    obtain ⟨k, h1, h2, e⟩ := winMin_mem (n + 1) (by omega) f 0
    rw [e]; exact winMin_le _ _ _ _ (by omega) (by omega)
  · obtain ⟨k, h1, h2, e⟩ := winMin_mem (n + 2) (by omega) f 0
    rw [e]
    rcases Nat.lt_or_ge k (n + 1) with h | h
    · exact min_le_of_left_le (winMin_le _ _ _ _ (by omega) (by omega))
    · rw [show k = n + 1 by omega]; exact min_le_right _ _
theorem winMax_one' (f : Nat → R) : winMax 1 f 0 = f 0 := by simp [winMax]
theorem winMin_one' (f : Nat → R) : winMin 1 f 0 = f 0 := by simp [winMin]

def devSum (g : Nat → R) (mean : R) (m : Nat) : R := ∑ k ∈ Finset.range m, (g k - mean)
def devSq (g : Nat → R) (mean : R) (m : Nat) : R := ∑ k ∈ Finset.range m, (g k - mean) ^ 2
def devMax (g : Nat → R) (mean : R) (m : Nat) : Option R := if m = 0 then none else some (winMax m (fun k => devSum g mean (k + 1)) 0)
def devMin (g : Nat → R) (mean : R) (m : Nat) : Option R := if m = 0 then none else some (winMin m (fun k => devSum g mean (k + 1)) 0)

theorem devMax_succ (g : Nat → R) (mean : R) (m : Nat) :
    some (optMax (devMax g mean m) (devSum g mean (m + 1))) = devMax g mean (m + 1) := by
  cases m with
  | zero => simp [devMax, optMax, winMax_one']
  | succ m => simp [devMax, optMax, winMax_grow, stdMax_eq]
theorem devMin_succ (g : Nat → R) (mean : R) (m : Nat) :
    some (optMin (devMin g mean m) (devSum g mean (m + 1))) = devMin g mean (m + 1) := by
  cases m with
  | zero => simp [devMin, optMin, winMin_one']
  | succ m => simp [devMin, optMin, winMin_grow, stdMin_eq]

theorem pow_two' [LawfulPow R] (x : R) : CMath.pow x (c! 2) = x ^ 2 := by simpa using LawfulPow.pow_two x

/-- `R` and `S` of the values `g 0`, `g 1`, … read by the loop. -/
def devRS (g : Nat → R) (mean : R) (p : Nat) : R × R :=
  (winMax p (fun k => devSum g mean (k + 1)) 0 - winMin p (fun k => devSum g mean (k + 1)) 0, CMath.sqrt (devSq g mean p / (p : R)))

theorem hurstWin_ok [LawfulPow R] {v : R} {p : Nat} (hv : v = ((p : Int) : R)) (hb : bound v = .ok (p : Int)) (hp : 1 ≤ p)
    {get : Int → M R} {g : Nat → R} (hg : ∀ k, k < p → get (k : Int) = .ok (g k)) (mean : R) :
    hurstWin v mean get = .ok (devRS g mean p) := by
  unfold hurstWin
  rw [hb, bind_ok]
  refine forUp_bind 0 p (fun k => (⟨devSum g mean k, devMax g mean k, devMin g mean k, devSq g mean k⟩ : HurstW R)) rfl rfl ?_
    (by omega) ?_ ?_
  · simp [devSum, devMax, devMin, devSq]
  · intro k _ hk
    dsimp only
    rw [hg k hk, bind_ok]
    have e : devSum g mean k + (g k - mean) = devSum g mean (k + 1) := by rw [devSum, devSum, Finset.sum_range_succ]
    simp only [e, devMax_succ, devMin_succ, pow_two', pure_eq]
    rw [show devSq g mean k + (g k - mean) ^ 2 = devSq g mean (k + 1) by rw [devSq, devSq, Finset.sum_range_succ]]
  · simp only [devMax, devMin, if_neg (show ¬ p = 0 by omega), getV, bind_ok, pure_eq, devRS, hv]
    simp

def hD (x : Nat → R) (k : Nat) : R := hurstRet (x (k + 1)) (x k)
def hVal (p : Nat) (x : Nat → R) (j : Nat) : Hurst R :=
  hurstOut ((p : Int) : R) (devRS (fun k => hD x (j + (p - 1) - k)) ((slideS (hD x) p (j + (p - 1)) + hD x (j + (p - 1))) / ((p : Int) : R)) p)

theorem ltReal_ordered {σ ω ρ : Type} (phs : List (Phase ρ σ ω)) (h : ∀ ph ∈ phs, ∀ p : Int, ph.cond p = false → ph.cond (p + 1) = false)
    (hl : ∀ p : Int, ∃ ph ∈ phs, ph.cond p = true) : Phases.Ordered phs := ⟨h, hl⟩

theorem cast_lt_mono {v : R} {p : Int} (h : decide ((p : R) < v) = false) : decide (((p + 1 : Int) : R) < v) = false := by
  have h := of_decide_eq_false h
  refine decide_eq_false fun h' => h ?_
  have : ((p : Int) : R) < ((p + 1 : Int) : R) := by exact_mod_cast Int.lt_succ p
  exact lt_trans this h'

theorem hurstLoops_ordered (v : R) (xs : List R) : Phases.Ordered (hurstLoops v xs) := by
  refine ⟨?_, fun p => ⟨_, List.getLast_mem (List.cons_ne_nil _ _), rfl⟩⟩
  unfold hurstLoops
  simp only [List.forall_mem_cons]
  refine ⟨fun p h => ?_, fun p h => cast_lt_mono h, by simp⟩
  have h := of_decide_eq_false h
  exact decide_eq_false (by omega)
theorem hurstPhases_ordered (v : R) : Phases.Ordered (hurstPhases v) := by
  refine ⟨?_, fun p => ⟨_, List.getLast_mem (List.cons_ne_nil _ _), rfl⟩⟩
  unfold hurstPhases
  simp only [List.forall_mem_cons]
  refine ⟨fun p h => cast_lt_mono h, fun p h => ?_, by simp⟩
  have h := of_decide_eq_false h
  exact decide_eq_false (by omega)

theorem hurst_bar [LawfulPow R] {v : R} {p : Nat} (hv : v = ((p : Int) : R)) (hb : bound v = .ok (p : Int)) (hp : 1 ≤ p)
    (hq : toInt (v - c! 1) = .ok ((p - 1 : Nat) : Int)) (x h : Nat → R) (m n : Nat) (hn : p ≤ n + 1)
    (hh : ∀ k, k < p → h (m - k) = hD x (n - k)) (hm : p ≤ m + 1) {β : Type} (K : R × R → R → M β) (sum : R) :
    (hurstWin v (sum / v) (Ring.now h p m).get >>= fun rs => toInt (v - c! 1) >>= fun q => (Ring.now h p m).get q >>= K rs) =
      K (devRS (fun k => hD x (n - k)) (sum / v) p) (hD x (n - (p - 1))) := by
  rw [hurstWin_ok hv hb hp (g := fun k => hD x (n - k)) (fun k hk => ?_) _, bind_ok, hq, bind_ok,
    Ring.now_get h p m ((p - 1 : Nat) : Int) (p - 1) rfl (by omega) (by omega), bind_ok, hh _ (by omega)]
  rw [Ring.now_get h p m (k : Int) k rfl (by omega) (by omega), hh k hk]

theorem hurst_run [LawfulTrunc R] [LawfulRound R] [LawfulPow R] (o : Nat → R) (p : Nat) (ho : o 0 = ((p : Int) : R)) (hp : 2 ≤ p) (hb : p ≤ 2147483647)
    (hbd : bound (o 0) = .ok (p : Int)) : Computes hurstBatch o p (hVal p) := by
  intro x N
  have hc : toInt (o 0) = .ok (p : Int) := toInt_cast' ho (by omega)
  have hq : toInt (o 0 - c! 1) = .ok ((p - 1 : Nat) : Int) := by
    exact toInt_sub_one hc (by omega)
  have hv2 : ¬ o 0 < c! 2 := by rw [ho]; push_cast; exact not_lt.2 (by exact_mod_cast hp)
  unfold hurstBatch
  rw [if_neg hv2, hc, bind_ok, Ring.make_after (hD x) p (by omega), bind_ok, hurstStart, hc, bind_ok]
  refine loopBatch_run x N p _ (by simp) ((hurstLoops_ordered _ _).from _)
    (fun n => (⟨slideS (hD x) p (n - 1), Ring.after (hD x) p (n - 1)⟩ : HurstS R)) ?_ _ ?_
  · simp [slideS]
  intro n hn
  simp only [barStep, hurstLoops, List.find?]
  cases n with
  | zero =>
    rw [decide_eq_true (by omega)]
    simp only [pure_eq, if_pos (show 0 < p by omega)]
  | succ n =>
    rw [decide_eq_false (by omega)]
    have hrd : rd (pre x N) (0 + ((n + 1 : Nat) : Int) - 1) = .ok (x n) := rd_at n (by omega) (by omega)
    have hset := Ring.after_set (hD x) p (by omega) n (hurstRet (x (n + 1)) (x n)) rfl
    have hcond : (((0 + ((n + 1 : Nat) : Int) : Int) : R) < o 0) ↔ n + 1 < p := by rw [ho]; rw [Int.cast_lt]; omega
    by_cases h1 : n + 1 < p
    · rw [decide_eq_true (hcond.2 h1)]
      simp only [hrd, bind_ok, Nat.add_sub_cancel, hset, pure_eq, Ring.now_step, if_pos h1, slideS, if_pos (show n < p - 1 by omega)]
      rfl
    rw [decide_eq_false (fun h => h1 (hcond.1 h))]
    simp only [hrd, bind_ok, Nat.add_sub_cancel, hset, Ring.now_step, if_neg h1]
    rw [hurst_bar ho hbd (by omega) hq x (hD x) n n (by omega) (fun k _ => rfl) (by omega)]
    simp only [pure_eq]
    rw [slideS, if_neg (show ¬ n < p - 1 by omega), hVal, show n + 1 - p + (p - 1) = n by omega, ho]
    rfl

theorem Ring2.after_set_step (h : Nat → R) (n : Nat) {v : R} (hv : v = h n) : ((Ring2.after h n).set v).step = Ring2.after h (n + 1) := by
  subst hv; exact Ring2.now_step h n
theorem Ring2.after_one (h : Nat → R) (n : Nat) (v : R) : ((Ring2.after h n).set v).get 1 = .ok (back h n 1) := rfl

theorem hurst_stream_run [LawfulTrunc R] [LawfulRound R] [LawfulPow R] (o : Nat → R) (p : Nat) (ho : o 0 = ((p : Int) : R)) (hp : 2 ≤ p)
    (hb : p ≤ 2147483647) (hbd : bound (o 0) = .ok (p : Int)) : (hurst (R := R)).StreamComputes o p (hVal p) := by
  have hc : toInt (o 0) = .ok (p : Int) := toInt_cast' ho (by omega)
  have hq : toInt (o 0 - c! 1) = .ok ((p - 1 : Nat) : Int) := toInt_sub_one hc (by omega)
  have hv2 : ¬ o 0 < c! 2 := by rw [ho]; push_cast; exact not_lt.2 (by exact_mod_cast hp)
  refine streamComputes_traj (I := hurst) (k := o 0) (s0 := (⟨c! 0, ⟨List.replicate p (c! 0), 0⟩, Ring2.make⟩ : HurstT R))
    ?_ (hurstPhases_ordered _)
    (fun x n => (⟨slideS (hD x) p (n - 1), Ring.after (hD x) p (n - 1), Ring2.after x n⟩ : HurstT R)) ?_ ?_
  · simp only [hurst, hurstNew, if_neg hv2, hurstStart, hc, bind_ok]
    rw [Ring.make_after (fun _ => c! 0) p (by omega)]
    rfl
  · intro x
    simp [slideS, Ring.after, Ring2.after, Ring2.make, back]
    rfl
  intro x n
  simp only [hurst, barStep, hurstPhases, List.find?]
  have hcond : (((-(p : Int) + (n : Int) : Int) : R) < -o 0 + c! 1) ↔ n < 1 := by
    rw [ho]
    have : ((-((p : Int) : R) + (((1 : Int)) : R)) : R) = ((-(p : Int) + 1 : Int) : R) := by push_cast; ring
    rw [this, Int.cast_lt]; omega
  cases n with
  | zero =>
    rw [decide_eq_true (hcond.2 (by omega))]
    simp only [pure_eq, if_pos (show 0 < p by omega), Ring2.after_set_step x 0 rfl]
  | succ n =>
    rw [decide_eq_false (fun h => absurd (hcond.1 h) (by omega))]
    have hset := Ring.after_set (hD x) p (by omega) n (hurstRet (x (n + 1)) (x n)) rfl
    have e1 : ((Ring2.after x (n + 1)).set (x (n + 1))).get 1 = .ok (x n) := by rw [Ring2.after_one]; simp [back]
    have e0 : ((Ring2.after x (n + 1)).set (x (n + 1))).cur = x (n + 1) := rfl
    by_cases h1 : n + 1 < p
    · rw [decide_eq_true (by omega)]
      simp only [e1, e0, bind_ok, Nat.add_sub_cancel, hset, pure_eq, Ring.now_step, if_pos h1, slideS, if_pos (show n < p - 1 by omega),
        Ring2.after_set_step x (n + 1) rfl]
      rfl
    rw [decide_eq_false (by omega)]
    simp only [e1, e0, bind_ok, Nat.add_sub_cancel, hset, Ring.now_step, if_neg h1, Ring2.after_set_step x (n + 1) rfl]
    rw [hurst_bar ho hbd (by omega) hq x (hD x) n n (by omega) (fun k _ => rfl) (by omega)]
    simp only [pure_eq]
    rw [slideS, if_neg (show ¬ n < p - 1 by omega), hVal, show n + 1 - p + (p - 1) = n by omega, ho]
    rfl

/-- Output of the reference for window `j`. -/
def hRef (p : Nat) (x : Nat → R) (j : Nat) : Hurst R :=
  let r := fun k => CMath.log (x (j + p - k) / x (j + p - k - 1))
  let rs := devRS r ((∑ k ∈ Finset.range p, r k) / ((p : Int) : R)) p
  ⟨CMath.log (rs.1 / rs.2) / CMath.log ((p : Int) : R), c! 2 - CMath.log (rs.1 / rs.2) / CMath.log ((p : Int) : R)⟩

theorem hurst_ref_run [LawfulTrunc R] [LawfulRound R] [LawfulPow R] (o : Nat → R) (p : Nat) (ho : o 0 = ((p : Int) : R)) (hp : 2 ≤ p)
    (hb : p ≤ 2147483647) (hbd : bound (o 0) = .ok (p : Int)) : Computes hurstRef o p (hRef p) := by
  intro x N
  have hc : toInt (o 0) = .ok (p : Int) := toInt_cast' ho (by omega)
  have hv2 : ¬ o 0 < c! 2 := by rw [ho]; push_cast; exact not_lt.2 (by exact_mod_cast hp)
  unfold hurstRef
  rw [if_neg hv2, hurstStart, hc, bind_ok, bind_ok]
  by_cases hN : N ≤ p
  · rw [forUp_empty (by simp; omega), Nat.sub_eq_zero_of_le hN]; rfl
  refine forUp_bind p N (fun i => pre (hRef p x) (i - p)) rfl (by simp) (by simp) (by omega) ?_ rfl
  intro i h1 h2
  have hr : ∀ k, k < p → (do return CMath.log ((← rd (pre x N) ((i : Int) - k)) / (← rd (pre x N) ((i : Int) - k - 1))) : M R) =
      .ok (CMath.log (x (i - k) / x (i - k - 1))) := by
    intro k hk
    rw [show rd (pre x N) ((i : Int) - k) = .ok (x (i - k)) from rd_at _ (by omega) (by omega), bind_ok,
      show rd (pre x N) ((i : Int) - k - 1) = .ok (x (i - k - 1)) from rd_at _ (by omega) (by omega)]
    rfl
  dsimp only
  generalize hg : (fun k => CMath.log (x (i - k) / x (i - k - 1))) = g
  have hr : ∀ k : Nat, k < p → (do return CMath.log ((← rd (pre x N) ((i : Int) - k)) / (← rd (pre x N) ((i : Int) - k - 1))) : M R) =
      .ok (g k) := fun k hk => by rw [hr k hk, ← hg]
  rw [hbd, bind_ok]
  refine forUp_bind 0 p (fun m => ∑ k ∈ Finset.range m, g k) rfl rfl (by simp) (by omega) (fun k _ hk => ?_) ?_
  · rw [hr k hk, bind_ok, Finset.sum_range_succ]; rfl
  rw [bind_ok]
  generalize hmean : (∑ k ∈ Finset.range p, g k) / o 0 = mean
  refine forUp_bind 0 p (fun m => (devSum g mean m, devMax g mean m, devMin g mean m)) rfl rfl (by simp [devSum, devMax, devMin])
    (by omega) (fun k _ hk => ?_) ?_
  · dsimp only
    rw [hr k hk, bind_ok, show devSum g mean k + (g k - mean) = devSum g mean (k + 1) by rw [devSum, devSum, Finset.sum_range_succ],
      devMax_succ, devMin_succ]
    rfl
  rw [bind_ok]
  refine forUp_bind 0 p (fun m => devSq g mean m) rfl rfl (by simp [devSq]) (by omega) (fun k _ hk => ?_) ?_
  · rw [hr k hk, bind_ok, pow_two', devSq, devSq, Finset.sum_range_succ]; rfl
  simp only [devMax, devMin, if_neg (show ¬ p = 0 by omega), getV, bind_ok]
  rw [show i + 1 - p = (i - p) + 1 by omega]
  refine wr_pre _ _ _ _ (by simp; omega) ?_
  simp only [hRef, show i - p + p = i by omega, hg, devRS, ← hmean, ho]
  simp

/-! ### mesastoch -/

/-- A signal defined from its own two last values, zero at first. -/
def rec2 (f : Nat → R → R → R) : Nat → R
  | 0 => f 0 (c! 0) (c! 0)
  | 1 => f 1 (f 0 (c! 0) (c! 0)) (c! 0)
  | n + 2 => f (n + 2) (rec2 f (n + 1)) (rec2 f n)
theorem rec2_eq (f : Nat → R → R → R) (t : Nat) : rec2 f t = f t (back (rec2 f) t 1) (back (rec2 f) t 2) := by
  match t with
  | 0 => simp [rec2, back]
  | 1 => simp [rec2, back]
  | n + 2 => simp [rec2, back]

def mesaH (k : MesaK R) (x : Nat → R) : Nat → R := rec2 fun t a b => mesaHP k (x (t + 2)) (x (t + 1)) (x t) a b
def mesaF (k : MesaK R) (x : Nat → R) : Nat → R := rec2 fun t a b => mesaSmooth k (mesaH k x t) (back (mesaH k x) t 1) a b
def mesaSt (k : MesaK R) (p : Nat) (x : Nat → R) (j : Nat) : R :=
  if mesaF k x (p + j) - recMin p (mesaF k x) (p + j) == c! 0 then c! 0
  else (mesaF k x (p + j) - recMin p (mesaF k x) (p + j)) / (recMax p (mesaF k x) (p + j) - recMin p (mesaF k x) (p + j))
def mesaV (k : MesaK R) (p : Nat) (x : Nat → R) : Nat → R :=
  rec2 fun j a b => mesaSmooth k (mesaSt k p x j) (back (mesaSt k p x) j 1) a b

variable {cmp rep : R → R → Bool} {le : R → R → Prop}

theorem Ext.late_step (C : Rep rep le) {x : Nat → R} {p n : Nat} {base : Int} (hp : 1 ≤ p) {find : M Nat}
    (hfind : ∃ it a, find = .ok it ∧ (Ring.now x p (n + 1)).age it = .ok a ∧ a < p ∧
      rd (Ring.now x p (n + 1)).buf it = .ok (if a ≤ n + 1 then x (n + 1 - a) else c! 0) ∧
      ∀ k, k < p → le (if k ≤ n + 1 then x (n + 1 - k) else c! 0) (if a ≤ n + 1 then x (n + 1 - a) else c! 0))
    {e : Ext R} (h : Ext.Kept le x p base n e) (i : Int) (hi : i = base + (n + 1 : Nat)) :
    ∃ e', e.late rep (Ring.now x p (n + 1)) find (p : Int) i (x (n + 1)) = .ok e' ∧ Ext.Kept le x p base (n + 1) e' := by
  subst hi
  unfold Ext.late
  obtain ⟨a, hv, hi, h1, h2, h3⟩ := h
  rw [hi, hv]
  simp only [getV, bind_ok]
  by_cases hr : rep (x (n + 1)) (x a) = true
  · rw [if_pos hr]
    have hle := (C.iff _ _).1 hr
    refine ⟨_, rfl, n + 1, rfl, rfl, le_rfl, by omega, fun k hk1 hk2 => ?_⟩
    rcases Nat.lt_or_ge n k with h | h
    · rw [show k = n + 1 by omega]; exact C.rfl' _
    · exact C.trans _ _ _ (h3 k h (by omega)) hle
  rw [if_neg hr]
  by_cases hc : base + (a : Int) = base + ((n + 1 : Nat) : Int) - p
  · rw [if_pos hc]
    obtain ⟨it, b, hf, ha, hb, hr, hbest⟩ := hfind
    simp only [hf, bind_ok, hr, ha]
    refine ⟨_, rfl, n + 1 - b, ?_, ?_, by omega, by omega, fun k hk1 hk2 => ?_⟩
    · dsimp only; rw [if_pos (by omega)]
    · dsimp only; congr 1; omega
    · have := hbest (n + 1 - k) (by omega)
      rw [if_pos (by omega), if_pos (by omega), show n + 1 - (n + 1 - k) = k by omega] at this
      exact this
  · rw [if_neg hc]
    refine ⟨_, rfl, a, hv, hi, by omega, by omega, fun k hk1 hk2 => ?_⟩
    rcases Nat.lt_or_ge n k with h | h
    · rw [show k = n + 1 by omega]
      exact C.total _ _ (fun h' => hr ((C.iff _ _).2 h'))
    · exact h3 k h (by omega)

theorem Ring.after_back (h : Nat → R) (m n : Nat) (i : Int) (k : Nat) (hi : i = (k : Int)) (h0 : 1 ≤ k) (h1 : k < m) :
    (Ring.after h m n).get i = .ok (back h n k) := Ring.after_get h m n i k hi h0 h1
theorem Ring.now_back (h : Nat → R) (m n : Nat) (i : Int) (k : Nat) (hi : i = (k : Int)) (h1 : k < m) :
    (Ring.now h m n).get i = .ok (back h n k) := Ring.now_get_any h m n i k hi h1

structure MesaInv (k : MesaK R) (p : Nat) (base : Int) (x : Nat → R) (t : Nat) (s : MesaS R) : Prop where
  hp : s.hp = Ring.after (mesaH k x) 3 t
  filt : s.filt = Ring.after (mesaF k x) p t
  stoc : s.stoc = Ring2.after (mesaSt k p x) (t - p)
  res : s.res = Ring.after (mesaV k p x) 3 (t - p)
  ext : HiLo.Before .unset (mesaF k x) (mesaF k x) p base t s.ext

theorem mesaFilter_ok {k : MesaK R} {p : Nat} (h3 : 3 ≤ p) {base : Int} {x : Nat → R} {t : Nat} {s : MesaS R}
    (H : MesaInv k p base x t s) : mesaFilter k (x (t + 2)) (x (t + 1)) (x t) s =
      .ok (mesaF k x t, { s with hp := Ring.now (mesaH k x) 3 t, filt := Ring.now (mesaF k x) p t }) := by
  have e1 : mesaHP k (x (t + 2)) (x (t + 1)) (x t) (back (mesaH k x) t 1) (back (mesaH k x) t 2) = mesaH k x t := (rec2_eq _ _).symm
  have e2 : mesaSmooth k (mesaH k x t) (back (mesaH k x) t 1) (back (mesaF k x) t 1) (back (mesaF k x) t 2) = mesaF k x t :=
    (rec2_eq _ _).symm
  unfold mesaFilter
  rw [H.hp, H.filt, Ring.after_back _ 3 t 1 1 rfl le_rfl (by omega), bind_ok, Ring.after_back _ 3 t 2 2 rfl (by omega) (by omega), bind_ok]
  rw [e1]
  dsimp only
  rw [Ring.after_set (mesaH k x) 3 (by omega) t (mesaH k x t) rfl, bind_ok, Ring.now_back _ 3 t 1 1 rfl (by omega), bind_ok,
    Ring.after_back _ p t 1 1 rfl le_rfl (by omega), bind_ok, Ring.after_back _ p t 2 2 rfl (by omega) (by omega), bind_ok]
  rw [e2, Ring.after_set (mesaF k x) p (by omega) t (mesaF k x t) rfl, bind_ok]
  rfl

theorem mesaWarm_ok {k : MesaK R} {p : Nat} (h3 : 3 ≤ p) {base : Int} {x : Nat → R} {t : Nat} {s : MesaS R} (ht : t < p)
    (H : MesaInv k p base x t s) (i : Int) (hi : i = base + t) :
    ∃ s', mesaWarm k (x (t + 2)) (x (t + 1)) (x t) i s = .ok (s', []) ∧ MesaInv k p base x (t + 1) s' := by
  unfold mesaWarm
  rw [mesaFilter_ok h3 H, bind_ok]
  refine ⟨_, rfl, rfl, rfl, ?_, ?_, ?_⟩
  · dsimp only; rw [H.stoc, Nat.sub_eq_zero_of_le (show t ≤ p by omega), Nat.sub_eq_zero_of_le (show t + 1 ≤ p by omega)]
  · dsimp only; rw [H.res, Nat.sub_eq_zero_of_le (show t ≤ p by omega), Nat.sub_eq_zero_of_le (show t + 1 ≤ p by omega)]
  · exact HiLo.take_bar rfl rfl (by omega) ht H.ext i hi

theorem mesaBar_ok {k : MesaK R} {p : Nat} (h3 : 3 ≤ p) {base : Int} {x : Nat → R} {t : Nat} {s : MesaS R} (ht : p ≤ t)
    (H : MesaInv k p base x t s) (i : Int) (hi : i = base + t) (max min : Ring R → M Nat)
    (hmax : ∀ (h : Nat → R) n, ∃ it a, max (Ring.now h p n) = .ok it ∧ (Ring.now h p n).age it = .ok a ∧ a < p ∧
      rd (Ring.now h p n).buf it = .ok (if a ≤ n then h (n - a) else c! 0) ∧
      ∀ k, k < p → (if k ≤ n then h (n - k) else c! 0) ≤ (if a ≤ n then h (n - a) else c! 0))
    (hmin : ∀ (h : Nat → R) n, ∃ it a, min (Ring.now h p n) = .ok it ∧ (Ring.now h p n).age it = .ok a ∧ a < p ∧
      rd (Ring.now h p n).buf it = .ok (if a ≤ n then h (n - a) else c! 0) ∧
      ∀ k, k < p → (if k ≤ n then h (n - k) else c! 0) ≥ (if a ≤ n then h (n - a) else c! 0)) :
    ∃ s', mesaBar k max min (p : Int) (x (t + 2)) (x (t + 1)) (x t) i s = .ok (s', [mesaV k p x (t - p)]) ∧
      MesaInv k p base x (t + 1) s' := by
  obtain ⟨n, rfl⟩ : ∃ n, t = n + 1 := ⟨t - 1, by omega⟩
  unfold mesaBar
  rw [mesaFilter_ok h3 H, bind_ok]
  dsimp only
  have HK : HiLo.Kept (mesaF k x) (mesaF k x) p base n s.ext := H.ext
  obtain ⟨hi', e1, k1⟩ := Ext.late_step repMax_rep (by omega) (hmax (mesaF k x) (n + 1)) HK.1 i hi
  obtain ⟨lo', e2, k2⟩ := Ext.late_step repMin_rep (by omega) (hmin (mesaF k x) (n + 1)) HK.2 i hi
  have hk : HiLo.Kept (mesaF k x) (mesaF k x) p base (n + 1) ⟨hi', lo'⟩ := ⟨k1, k2⟩
  rw [e1, bind_ok, e2, bind_ok, show hi'.val = some (recMax p (mesaF k x) (n + 1)) from hk.hi (by omega),
    show lo'.val = some (recMin p (mesaF k x) (n + 1)) from hk.lo (by omega), H.stoc, H.res]
  simp only [getV, bind_ok, Ring2.after_one]
  have est : (if mesaF k x (n + 1) - recMin p (mesaF k x) (n + 1) == c! 0 then c! 0 else (mesaF k x (n + 1) - recMin p (mesaF k x) (n + 1)) /
      (recMax p (mesaF k x) (n + 1) - recMin p (mesaF k x) (n + 1))) = mesaSt k p x (n + 1 - p) := by
    rw [mesaSt, show p + (n + 1 - p) = n + 1 by omega]
  rw [est, Ring.after_back _ 3 (n + 1 - p) 1 1 rfl le_rfl (by omega), bind_ok, Ring.after_back _ 3 (n + 1 - p) 2 2 rfl (by omega) (by omega), bind_ok]
  have ev : mesaSmooth k (mesaSt k p x (n + 1 - p)) (back (mesaSt k p x) (n + 1 - p) 1) (back (mesaV k p x) (n + 1 - p) 1)
      (back (mesaV k p x) (n + 1 - p) 2) = mesaV k p x (n + 1 - p) := (rec2_eq _ _).symm
  rw [show ((Ring2.after (mesaSt k p x) (n + 1 - p)).set (mesaSt k p x (n + 1 - p))).cur = mesaSt k p x (n + 1 - p) from rfl,
    ev, Ring.after_set (mesaV k p x) 3 (by omega) (n + 1 - p) (mesaV k p x (n + 1 - p)) rfl, bind_ok]
  refine ⟨_, rfl, rfl, rfl, ?_, ?_, hk⟩
  · dsimp only; rw [Ring2.after_set_step _ _ rfl, show n + 1 + 1 - p = n + 1 - p + 1 by omega]
  · dsimp only; rw [Ring.now_step, show n + 1 + 1 - p = n + 1 - p + 1 by omega]

theorem phys_find (C : Ring.Cmp cmp le) (p : Nat) (hp : 1 ≤ p) (h : Nat → R) (n : Nat) :
    ∃ it a, (Ring.now h p n).physMax cmp = .ok it ∧ (Ring.now h p n).age it = .ok a ∧ a < p ∧
      rd (Ring.now h p n).buf it = .ok (if a ≤ n then h (n - a) else c! 0) ∧
      ∀ k, k < p → le (if k ≤ n then h (n - k) else c! 0) (if a ≤ n then h (n - a) else c! 0) := by
  have hnow := Ring.now_now h p (by omega) n
  exact Ring.physMax_ok C (g := fun k => if k ≤ n then h (n - k) else c! 0) hp hnow.len hnow.pos (fun k hk => hnow.val k hk)
theorem stream_find (C : Ring.Cmp cmp le) (p : Nat) (hp : 1 ≤ p) (h : Nat → R) (n : Nat) :
    ∃ it a, (Ring.now h p n).findMax cmp (p : Int) = .ok it ∧ (Ring.now h p n).age it = .ok a ∧ a < p ∧
      rd (Ring.now h p n).buf it = .ok (if a ≤ n then h (n - a) else c! 0) ∧
      ∀ k, k < p → le (if k ≤ n then h (n - k) else c! 0) (if a ≤ n then h (n - a) else c! 0) := by
  have hnow := Ring.now_now h p (by omega) n
  exact Ring.findMax_ok C (g := fun k => if k ≤ n then h (n - k) else c! 0) hnow.len hnow.pos (fun k hk => hnow.val k hk) p hp le_rfl

theorem mesastochLoops_ordered (k : MesaK R) (p st : Int) (hs : 2 ≤ st) (xs : List R) : Phases.Ordered (mesastochLoops k p st xs) := by
  phases_ordered mesastochLoops
theorem mesastochPhases_ordered (k : Int × MesaK R) : Phases.Ordered (mesastochPhases k) := by phases_ordered mesastochPhases

theorem mesaInv_zero (k : MesaK R) (p : Nat) (base : Int) (x : Nat → R) :
    MesaInv k p base x 0 ⟨Ring.after (mesaH k x) 3 0, Ring.after (mesaF k x) p 0, Ring2.make, Ring.after (mesaV k p x) 3 0, .unset⟩ :=
  ⟨rfl, rfl, by simp; rfl, by simp, rfl⟩

theorem mesastoch_run (o : Nat → R) (p m : Nat) (hcp : toInt (o 0) = .ok (p : Int)) (hcm : toInt (o 1) = .ok (m : Int)) (h3 : 3 ≤ p)
    (hm : 1 ≤ m) (hs : mesastochStart o = .ok ((p + 2 : Nat) : Int)) :
    Computes mesastochBatch o (p + 2) (mesaV (mesaConst (m : Int)) p) := by
  intro x N
  unfold mesastochBatch
  generalize hk : (mesaConst (m : Int) : MesaK R) = k
  rw [hcp, bind_ok, hcm, bind_ok, if_neg (by omega), if_neg (by omega), Ring.make_after (mesaF k x) p (by omega), bind_ok,
    show (3 : Int) = ((3 : Nat) : Int) from rfl, Ring.make_after (mesaH k x) 3 (by omega), bind_ok]
  rw [bind_ok, hs, bind_ok, hk]
  refine loopBatch_inv x N (p + 2) _ (by simp) ((mesastochLoops_ordered _ _ _ (by omega) _).from _)
    (fun n s => MesaInv k p 2 x (n - 2) s) (mesaInv_zero k p 2 x) _ ?_
  intro n s hn H
  simp only [barStep, mesastochLoops, List.find?]
  by_cases h0 : n < 2
  · rw [decide_eq_true (by omega)]
    dsimp only
    rw [if_pos (by omega)]
    refine ⟨_, rfl, ?_⟩
    rwa [show n + 1 - 2 = n - 2 by omega]
  obtain ⟨t, rfl⟩ : ∃ t, n = t + 2 := ⟨n - 2, by omega⟩
  rw [show t + 2 - 2 = t by omega] at H
  rw [decide_eq_false (by omega), show t + 2 + 1 - 2 = t + 1 by omega]
  have hr1 : rd (pre x N) (0 + ((t + 2 : Nat) : Int) - 1) = .ok (x (t + 1)) := rd_at _ (by omega) (by omega)
  have hr2 : rd (pre x N) (0 + ((t + 2 : Nat) : Int) - 2) = .ok (x t) := rd_at _ (by omega) (by omega)
  by_cases h1 : t < p
  · rw [decide_eq_true (by omega)]
    simp only [hr1, hr2, bind_ok]
    rw [if_pos (by omega)]
    exact mesaWarm_ok h3 h1 H _ (by omega)
  · rw [decide_eq_false (by omega)]
    simp only [hr1, hr2, bind_ok]
    rw [if_neg (by omega), show t + 2 - (p + 2) = t - p by omega]
    exact mesaBar_ok h3 (by omega) H _ (by omega) _ _ (phys_find less_cmp p (by omega)) (phys_find greater_cmp p (by omega))

theorem mesastoch_stream_run (o : Nat → R) (p m : Nat) (hcp : toInt (o 0) = .ok (p : Int)) (hcm : toInt (o 1) = .ok (m : Int)) (h3 : 3 ≤ p)
    (hm : 1 ≤ m) (hs : mesastochStart o = .ok ((p + 2 : Nat) : Int)) :
    (mesastoch (R := R)).StreamComputes o (p + 2) (mesaV (mesaConst (m : Int)) p) := by
  refine streamComputes_of (I := mesastoch) (k := ((p : Int), (mesaConst (m : Int) : MesaK R)))
    (s0 := (⟨⟨⟨List.replicate 3 (c! 0), 0⟩, ⟨List.replicate p (c! 0), 0⟩, Ring2.make, ⟨List.replicate 3 (c! 0), 0⟩, .unset⟩,
      ⟨List.replicate 3 (c! 0), 0⟩⟩ : MesaT R))
    ?_ (mesastochPhases_ordered _)
    (fun x n t => MesaInv (mesaConst (m : Int)) p (-(p : Int)) x (n - 2) t.s ∧ t.price = Ring.after x 3 n)
    (fun x => ⟨mesaInv_zero _ p _ x, rfl⟩) ?_
  · simp only [mesastoch, mesastochNew, hcp, hcm, bind_ok, hs]
    rw [if_neg (by omega), if_neg (by omega), show (3 : Int) = ((3 : Nat) : Int) from rfl, Ring.make_after (fun _ => c! 0) 3 (by omega), bind_ok,
      bind_ok, bind_ok, Ring.make_after (fun _ => c! 0) p (by omega)]
    rfl
  generalize (mesaConst (m : Int) : MesaK R) = k
  rintro x n ⟨s, price⟩ ⟨H, hpr⟩
  dsimp only at H hpr
  subst hpr
  have e2 := Ring.after_set x 3 (by omega) n _ rfl
  simp only [mesastoch, barStep, mesastochPhases, List.find?]
  by_cases h0 : n < 2
  · rw [decide_eq_true (by omega)]
    dsimp only
    rw [if_pos (by omega), e2, bind_ok]
    refine ⟨_, rfl, ?_, rfl⟩
    rwa [show n + 1 - 2 = n - 2 by omega]
  obtain ⟨t, rfl⟩ : ∃ t, n = t + 2 := ⟨n - 2, by omega⟩
  rw [show t + 2 - 2 = t by omega] at H
  have hr1 := Ring.now_get x 3 (t + 2) 1 1 rfl (by omega) (by omega)
  have hr2 := Ring.now_get x 3 (t + 2) 2 2 rfl (by omega) (by omega)
  rw [show t + 2 - 1 = t + 1 by omega] at hr1
  rw [show t + 2 - 2 = t by omega] at hr2
  rw [decide_eq_false (by omega)]
  by_cases h1 : t < p
  · rw [decide_eq_true (by omega)]
    simp only [e2, hr1, hr2, bind_ok]
    rw [if_pos (by omega)]
    obtain ⟨s', h4, h5⟩ := mesaWarm_ok h3 h1 H (-((p + 2 : Nat) : Int) + ((t + 2 : Nat) : Int)) (by omega)
    rw [h4]
    exact ⟨_, rfl, h5, rfl⟩
  · rw [decide_eq_false (by omega)]
    simp only [e2, hr1, hr2, bind_ok]
    rw [if_neg (by omega), show t + 2 - (p + 2) = t - p by omega]
    obtain ⟨s', h4, h5⟩ := mesaBar_ok h3 (by omega) H (-((p + 2 : Nat) : Int) + ((t + 2 : Nat) : Int)) (by omega)
      (fun f => f.findMax cmpLess p) (fun f => f.findMax cmpGreater p) (stream_find less_cmp p (by omega)) (stream_find greater_cmp p (by omega))
    rw [h4]
    exact ⟨_, rfl, h5, rfl⟩

/-- A deque of `m` cells before step `t`, the values `h` having been pushed to its front one after the other. -/
def dqAt (h : Nat → R) (m t : Nat) : List R := pre (fun k => back h t (k + 1)) m

theorem dqPush_pre (f g : Nat → R) (m : Nat) (hm : 1 ≤ m) (v : R) (h0 : g 0 = v) (h : ∀ k, k + 1 < m → g (k + 1) = f k) :
    dqPush (pre f m) v = .ok (pre g m) := by
  obtain ⟨m, rfl⟩ : ∃ n, m = n + 1 := ⟨m - 1, by omega⟩
  unfold dqPush
  rw [if_neg (by simp [pre])]
  congr 1
  rw [pre_succ, List.dropLast_concat]
  apply List.ext_getElem?
  intro i
  cases i with
  | zero => simp [pre, h0]
  | succ i =>
    simp only [List.getElem?_cons_succ]
    by_cases hi : i < m
    · rw [pre_getElem? f m i hi, pre_getElem? g _ _ (by omega), h i (by omega)]
    · rw [List.getElem?_eq_none (by simp [length_pre]; omega), List.getElem?_eq_none (by simp [length_pre]; omega)]

theorem dqPush_at (h : Nat → R) (m t : Nat) (hm : 1 ≤ m) (v : R) (hv : v = h t) : dqPush (dqAt h m t) v = .ok (dqAt h m (t + 1)) := by
  refine dqPush_pre _ _ m hm v ?_ fun k hk => ?_
  · simp [back, hv]
  · simp only [back]
    by_cases h1 : k + 1 ≤ t
    · rw [if_pos h1, if_pos (by omega), show t + 1 - (k + 1 + 1) = t - (k + 1) by omega]
    · rw [if_neg h1, if_neg (by omega)]

theorem dq_rd (h : Nat → R) (m t k : Nat) (hk : k < m) : rd (dqAt h m t) (k : Int) = .ok (back h t (k + 1)) := rd_pre_nat _ _ _ hk

structure MesaRefInv (k : MesaK R) (p : Nat) (x : Nat → R) (t : Nat) (s : MesaD R) : Prop where
  hp : s.hp = dqAt (mesaH k x) 3 t
  filt : s.filt = dqAt (mesaF k x) p t
  stoc : s.stoc = dqAt (mesaSt k p x) 2 (t - p)
  res : s.res = dqAt (mesaV k p x) 3 (t - p)

theorem mesaRefStep_ok {k : MesaK R} {p : Nat} (h3 : 3 ≤ p) {x : Nat → R} {t N : Nat} (ht : t + 2 < N) {s : MesaD R}
    (H : MesaRefInv k p x t s) : mesaRefStep k (pre x N) ((t + 2 : Nat) : Int) s =
      .ok { s with hp := dqAt (mesaH k x) 3 (t + 1), filt := dqAt (mesaF k x) p (t + 1) } := by
  have e1 : mesaHP k (x (t + 2)) (x (t + 1)) (x t) (back (mesaH k x) t 1) (back (mesaH k x) t 2) = mesaH k x t := (rec2_eq _ _).symm
  have e2 : mesaSmooth k (mesaH k x t) (back (mesaH k x) t 1) (back (mesaF k x) t 1) (back (mesaF k x) t 2) = mesaF k x t :=
    (rec2_eq _ _).symm
  have hr0 : rd (pre x N) ((t + 2 : Nat) : Int) = .ok (x (t + 2)) := rd_pre_nat _ _ _ (by omega)
  have hr1 : rd (pre x N) (((t + 2 : Nat) : Int) - 1) = .ok (x (t + 1)) := rd_at _ (by omega) (by omega)
  have hr2 : rd (pre x N) (((t + 2 : Nat) : Int) - 2) = .ok (x t) := rd_at _ (by omega) (by omega)
  have hd0 : rd (dqAt (mesaH k x) 3 t) 0 = .ok (back (mesaH k x) t 1) := dq_rd _ 3 t 0 (by omega)
  have hd1 : rd (dqAt (mesaH k x) 3 t) 1 = .ok (back (mesaH k x) t 2) := dq_rd _ 3 t 1 (by omega)
  have hz : dqPush (dqAt (mesaF k x) p t) (c! 0) = .ok (pre (fun i => if i = 0 then c! 0 else back (mesaF k x) t i) p) :=
    dqPush_pre _ _ p (by omega) _ (by simp) (fun i _ => by simp)
  have hz1 : rd (pre (fun i => if i = 0 then c! 0 else back (mesaF k x) t i) p) 1 = .ok (back (mesaF k x) t 1) := by
    rw [show (1 : Int) = ((1 : Nat) : Int) from rfl, rd_pre_nat _ _ _ (by omega)]; simp
  have hz2 : rd (pre (fun i => if i = 0 then c! 0 else back (mesaF k x) t i) p) 2 = .ok (back (mesaF k x) t 2) := by
    rw [show (2 : Int) = ((2 : Nat) : Int) from rfl, rd_pre_nat _ _ _ (by omega)]; simp
  unfold mesaRefStep
  rw [H.hp, H.filt]
  simp only [hr0, hr1, hr2, hd0, hd1, bind_ok, e1]
  rw [dqPush_at (mesaH k x) 3 t (by omega) (mesaH k x t) rfl, bind_ok, hz, bind_ok, hz1, bind_ok, hz2, bind_ok, e2,
    dqPush_at (mesaF k x) p t (by omega) (mesaF k x t) rfl]
  rfl

theorem rev_max {h : Nat → R} {p t : Nat} (hp : 1 ≤ p) (ht : p ≤ t + 1) : winMax p (fun k => back h (t + 1) (k + 1)) 0 = recMax p h t := by
  rw [recMax_full p h t ht]
  have e : ∀ k, k < p → back h (t + 1) (k + 1) = h (t - k) := fun k hk => by
    rw [back, if_pos (by omega), show t + 1 - (k + 1) = t - k by omega]
  apply le_antisymm
  · obtain ⟨k, h1, h2, e'⟩ := winMax_mem p hp (fun k => back h (t + 1) (k + 1)) 0
    rw [e', e k (by omega)]; exact le_winMax _ _ _ _ (by omega) (by omega)
  · obtain ⟨k, h1, h2, e'⟩ := winMax_mem p hp h (t + 1 - p)
    rw [e']
    have := le_winMax p (fun k => back h (t + 1) (k + 1)) 0 (t - k) (by omega) (by omega)
    rwa [e _ (by omega), show t - (t - k) = k by omega] at this
theorem rev_min {h : Nat → R} {p t : Nat} (hp : 1 ≤ p) (ht : p ≤ t + 1) : winMin p (fun k => back h (t + 1) (k + 1)) 0 = recMin p h t := by
  rw [recMin_full p h t ht]
  have e : ∀ k, k < p → back h (t + 1) (k + 1) = h (t - k) := fun k hk => by
    rw [back, if_pos (by omega), show t + 1 - (k + 1) = t - k by omega]
  apply le_antisymm
  · obtain ⟨k, h1, h2, e'⟩ := winMin_mem p hp h (t + 1 - p)
    rw [e']
    have := winMin_le p (fun k => back h (t + 1) (k + 1)) 0 (t - k) (by omega) (by omega)
    rwa [e _ (by omega), show t - (t - k) = k by omega] at this
  · obtain ⟨k, h1, h2, e'⟩ := winMin_mem p hp (fun k => back h (t + 1) (k + 1)) 0
    rw [e', e k (by omega)]; exact winMin_le _ _ _ _ (by omega) (by omega)

theorem dq_max {α : Type} {h : Nat → R} {p t : Nat} (hp : 1 ≤ p) (ht : p ≤ t + 1) (f : R → M α) :
    (maxUp cmpLess (dqAt h p (t + 1)) 0 (dqAt h p (t + 1)).length >>= fun k => rd (dqAt h p (t + 1)) k >>= f) = f (recMax p h t) := by
  obtain ⟨it, h1, h2, h3, h4⟩ := maxUp_finds less_cmp (fun k => back h (t + 1) (k + 1)) p 0 p (by omega) le_rfl
  unfold dqAt
  rw [length_pre, h1, bind_ok, rd_pre_nat _ _ _ (by omega), bind_ok, ← rev_max hp ht]
  congr 1
  apply le_antisymm
  · exact le_winMax p (fun k => back h (t + 1) (k + 1)) 0 it (by omega) (by omega)
  · obtain ⟨k, h5, h6, e⟩ := winMax_mem p hp (fun k => back h (t + 1) (k + 1)) 0
    rw [e]; exact h4 k (by omega) (by omega)
theorem dq_min {α : Type} {h : Nat → R} {p t : Nat} (hp : 1 ≤ p) (ht : p ≤ t + 1) (f : R → M α) :
    (maxUp cmpGreater (dqAt h p (t + 1)) 0 (dqAt h p (t + 1)).length >>= fun k => rd (dqAt h p (t + 1)) k >>= f) = f (recMin p h t) := by
  obtain ⟨it, h1, h2, h3, h4⟩ := maxUp_finds greater_cmp (fun k => back h (t + 1) (k + 1)) p 0 p (by omega) le_rfl
  unfold dqAt
  rw [length_pre, h1, bind_ok, rd_pre_nat _ _ _ (by omega), bind_ok, ← rev_min hp ht]
  congr 1
  apply le_antisymm
  · obtain ⟨k, h5, h6, e⟩ := winMin_mem p hp (fun k => back h (t + 1) (k + 1)) 0
    rw [e]; exact h4 k (by omega) (by omega)
  · exact winMin_le p (fun k => back h (t + 1) (k + 1)) 0 it (by omega) (by omega)

theorem mesaSt_unguarded (k : MesaK R) (p : Nat) (hp : 1 ≤ p) (x : Nat → R) (j : Nat) :
    (mesaF k x (p + j) - recMin p (mesaF k x) (p + j)) / (recMax p (mesaF k x) (p + j) - recMin p (mesaF k x) (p + j)) = mesaSt k p x j := by
  unfold mesaSt
  by_cases h : mesaF k x (p + j) - recMin p (mesaF k x) (p + j) = c! 0
  · rw [if_pos (beq_iff_eq.2 h), h]; simp
  · rw [if_neg (by simpa using h)]

theorem mesaRef_zero (k : MesaK R) (p : Nat) (x : Nat → R) : MesaRefInv k p x 0
    (⟨List.replicate 3 (c! 0), List.replicate p (c! 0), List.replicate 2 (c! 0), List.replicate 3 (c! 0)⟩ : MesaD R) := by
  have e : ∀ (h : Nat → R) m, List.replicate m (c! 0 : R) = dqAt h m 0 := by
    intro h m
    unfold dqAt back
    apply List.ext_getElem (by simp [length_pre])
    intro i h1 h2
    simp [pre]
  exact ⟨e _ _, e _ _, by simpa using e (mesaSt k p x) 2, by simpa using e (mesaV k p x) 3⟩

theorem mesastoch_ref_run (o : Nat → R) (p m : Nat) (hcp : toInt (o 0) = .ok (p : Int)) (hcm : toInt (o 1) = .ok (m : Int)) (h3 : 3 ≤ p)
    (hm : 1 ≤ m) (hs : mesastochStart o = .ok ((p + 2 : Nat) : Int)) (x : Nat → R) (N : Nat) (hN : p + 2 ≤ N) :
    mesastochRef o (pre x N) = .ok (.okay, pre (mesaV (mesaConst (m : Int)) p x) (N - (p + 2))) := by
  unfold mesastochRef
  generalize hk : (mesaConst (m : Int) : MesaK R) = k
  rw [hcp, bind_ok, hcm, bind_ok, if_neg (by omega), if_neg (by omega), hs, bind_ok]
  dsimp only
  rw [hk, Int.toNat_natCast]
  obtain ⟨s1, hs1, H1⟩ := forUp_inv (f := mesaRefStep k (pre x N)) (fun i s => MesaRefInv k p x (i - 2).toNat s) (lo := 2) (hi := ((p + 2 : Nat) : Int))
    (by omega) (mesaRef_zero k p x) (fun i s h1 h2 H => by
      obtain ⟨t, rfl⟩ : ∃ t : Nat, i = ((t + 2 : Nat) : Int) := ⟨(i - 2).toNat, by omega⟩
      rw [show (((t + 2 : Nat) : Int) - 2).toNat = t by omega] at H
      refine ⟨_, mesaRefStep_ok h3 (by omega) H, ?_⟩
      rw [show (((t + 2 : Nat) : Int) + 1 - 2).toNat = t + 1 by omega]
      refine ⟨rfl, rfl, ?_, ?_⟩
      · dsimp only; rw [H.stoc, Nat.sub_eq_zero_of_le (show t ≤ p by omega), Nat.sub_eq_zero_of_le (show t + 1 ≤ p by omega)]
      · dsimp only; rw [H.res, Nat.sub_eq_zero_of_le (show t ≤ p by omega), Nat.sub_eq_zero_of_le (show t + 1 ≤ p by omega)])
  rw [hs1, bind_ok]
  rw [show (((p + 2 : Nat) : Int) - 2).toNat = p by omega] at H1
  have hloop := forUp_inv (f := fun i (q : MesaD R × List R) => do
    let s ← mesaRefStep k (pre x N) i q.1
    let hi ← rd s.filt (← maxUp cmpLess s.filt 0 s.filt.length)
    let lo ← rd s.filt (← maxUp cmpGreater s.filt 0 s.filt.length)
    let c := ((← rd s.filt 0) - lo) / (hi - lo)
    let v := mesaSmooth k c (← rd s.stoc 0) (← rd s.res 0) (← rd s.res 1)
    let out ← wr ((pre x N).length - ((p + 2 : Nat) : Int)) q.2 v
    return ({ s with stoc := ← dqPush s.stoc c, res := ← dqPush s.res v }, out))
    (fun i q => MesaRefInv k p x (i - 2).toNat q.1 ∧ q.2 = pre (mesaV k p x) ((i - 2).toNat - p)) (lo := ((p + 2 : Nat) : Int))
    (hi := ((pre x N).length : Int)) (s := (s1, [])) (by simp; omega) ⟨by
      rw [show (((p + 2 : Nat) : Int) - 2).toNat = p by omega]; exact H1, by
      rw [show (((p + 2 : Nat) : Int) - 2).toNat = p by omega]; simp⟩ (fun i q h1 h2 H => by
      obtain ⟨t, rfl⟩ : ∃ t : Nat, i = ((t + 2 : Nat) : Int) := ⟨(i - 2).toNat, by omega⟩
      rw [show (((t + 2 : Nat) : Int) - 2).toNat = t by omega] at H
      obtain ⟨H, ho⟩ := H
      obtain ⟨s, out⟩ := q
      dsimp only at ho H
      subst ho
      have hl : (t : Int) + 2 < N := by simpa using h2
      dsimp only
      rw [mesaRefStep_ok h3 (by omega) H, bind_ok]
      dsimp only
      rw [dq_max (by omega) (by omega), dq_min (by omega) (by omega), show (0 : Int) = ((0 : Nat) : Int) from rfl, dq_rd _ p (t + 1) 0 (by omega),
        bind_ok, H.stoc, H.res, dq_rd _ 2 (t - p) 0 (by omega), bind_ok, dq_rd _ 3 (t - p) 0 (by omega), bind_ok,
        show (1 : Int) = ((1 : Nat) : Int) from rfl, dq_rd _ 3 (t - p) 1 (by omega), bind_ok,
        show back (mesaF k x) (t + 1) (0 + 1) = mesaF k x (p + (t - p)) by simp [back, show p + (t - p) = t by omega]]
      rw [show recMin p (mesaF k x) t = recMin p (mesaF k x) (p + (t - p)) by rw [show p + (t - p) = t by omega],
        show recMax p (mesaF k x) t = recMax p (mesaF k x) (p + (t - p)) by rw [show p + (t - p) = t by omega], mesaSt_unguarded k p (by omega)]
      rw [show mesaSmooth k (mesaSt k p x (t - p)) (back (mesaSt k p x) (t - p) (0 + 1)) (back (mesaV k p x) (t - p) (0 + 1))
        (back (mesaV k p x) (t - p) (1 + 1)) = mesaV k p x (t - p) from (rec2_eq _ _).symm,
        wr_pre _ _ (t - p) (mesaV k p x (t - p)) (by simp; omega) rfl, bind_ok, dqPush_at _ 2 (t - p) (by omega) _ rfl, bind_ok,
        dqPush_at _ 3 (t - p) (by omega) _ rfl, bind_ok]
      refine ⟨_, rfl, ?_, ?_⟩
      · rw [show (((t + 2 : Nat) : Int) + ((1 : Nat) : Int) - 2).toNat = t + 1 by omega]
        refine ⟨rfl, rfl, ?_, ?_⟩ <;> (dsimp only; rw [show t + 1 - p = t - p + 1 by omega])
      · rw [show (((t + 2 : Nat) : Int) + ((1 : Nat) : Int) - 2).toNat = t + 1 by omega, show t + 1 - p = t - p + 1 by omega])
  obtain ⟨q, hq, H2, ho⟩ := hloop
  rw [hq, bind_ok, ho]
  simp only [length_pre, pure_eq]
  rw [show ((N : Int) - 2).toNat - p = N - (p + 2) by omega]

end Field
end Verif
