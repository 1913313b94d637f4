/- wma, vwma, rsi, cmo, tr, atr, natr: runs in any arithmetic (helper lemmas). -/
import Verif.Model.Window
import Verif.Model.Range
import Verif.Proof.Ema
import Verif.Proof.Sum

namespace Verif
set_option linter.unusedSectionVars false
set_option linter.unusedSimpArgs false
variable {R : Type} [Num R]

theorem startM1_ok {v : R} {p : Nat} (hc : toInt v = .ok (p : Int)) (hp : 1 ≤ p) :
    i32 ((p : Int) - 1) = .ok ((p - 1 : Nat) : Int) := by
  have hr := toInt_range hc
  rw [i32_ok _ (by omega) (by omega)]; congr 1; omega

/-- weight_sum, sum of wma before loop index `i`. -/
def wmaSt (p : Nat) (x : Nat → R) : Nat → R × R
  | 0 => (c! 0, c! 0)
  | i + 1 =>
    if i < p - 1 then ((wmaSt p x i).1 + x i * ((i + 1 : Int) : R), (wmaSt p x i).2 + x i)
    else ((wmaSt p x i).1 + x i * ((p : Int) : R) - ((wmaSt p x i).2 + x i),
      (wmaSt p x i).2 + x i - x (i - (p - 1)))

def wmaVal (p : Nat) (x : Nat → R) (j : Nat) : R :=
  ((wmaSt p x (j + (p - 1))).1 + x (j + (p - 1)) * ((p : Int) : R)) / ((Int.tdiv (p * (p + 1)) 2 : Int) : R)

theorem wma_run (o : Nat → R) (p : Nat) (hc : toInt (o 0) = .ok (p : Int)) (hp : 1 ≤ p)
    (hb : p * (p + 1) ≤ 2147483647) : Computes wmaBatch o (p - 1) (wmaVal p) := by
  intro x N
  have hb' : (p : Int) * (p + 1) ≤ 2147483647 := by exact_mod_cast hb
  have hb0 : (0 : Int) ≤ (p : Int) * (p + 1) := by positivity
  have hp2 : (p : Int) + 1 ≤ 2147483647 := by nlinarith
  unfold wmaBatch
  simp only [hc, bind_ok, wmaStart, startM1_ok hc hp, length_pre, pure_eq]
  rw [if_neg (by omega)]
  split
  · rename_i h; simp [show N - (p - 1) = 0 by omega]
  rw [i32_ok _ (by omega) hp2, bind_ok, i32_ok _ (by omega) hb', bind_ok]
  refine forUp_bind 0 (p - 1) (fun i => ((wmaSt p x i).1, (wmaSt p x i).2)) rfl (by omega) rfl (by omega) ?_ ?_
  · intro i _ hi; run_simp [wmaSt, if_pos hi]
  refine forUp_bind (p - 1) N (fun i => ((wmaSt p x i).1, (wmaSt p x i).2, pre (wmaVal p x) (i - (p - 1))))
    (by omega) rfl (by simp) (by omega) ?_ ?_
  · intro i h1 hi
    run_simp []
    rw [pre_snoc (m := i + 1 - (p - 1)) (by omega)]
    · simp only [wmaSt, if_neg (show ¬ i < p - 1 by omega), show ((i : Int) - p + 1).toNat = i - (p - 1) by omega]
    · simp only [wmaVal, show i - (p - 1) + (p - 1) = i by omega]
  · run_simp []

theorem vwma_run (o : Nat → R) (p : Nat) (hc : toInt (o 0) = .ok (p : Int)) (hp : 1 ≤ p) :
    Computes vwmaBatch o (p - 1) (fun x j =>
      let s := slide (fun i => (x i).close * (x i).volume) p (j + p)
      if s == c! 0 then c! 0 else s / slide (fun i => (x i).volume) p (j + p)) := by
  intro x N
  unfold vwmaBatch
  simp only [hc, bind_ok, vwmaStart, startM1_ok hc hp, length_pre, pure_eq]
  rw [if_neg (by omega)]
  split
  · rename_i h; simp [show N - (p - 1) = 0 by omega]
  refine forUp_bind 0 p (fun i => (slide (fun i => (x i).close * (x i).volume) p i,
    slide (fun i => (x i).volume) p i)) rfl rfl rfl (by omega) ?_ ?_
  · intro i _ hi; run_simp [slide, if_pos hi]
  run_simp []
  refine forUp_bind p N (fun i => (slide (fun i => (x i).close * (x i).volume) p i,
    slide (fun i => (x i).volume) p i, pre (fun j =>
      let s := slide (fun i => (x i).close * (x i).volume) p (j + p)
      if s == c! 0 then c! 0 else s / slide (fun i => (x i).volume) p (j + p)) (i + 1 - p)))
    rfl rfl ?_ (by omega) ?_ ?_
  · simp [pre_succ]
  · intro i h1 hi
    obtain ⟨k, rfl⟩ : ∃ k, i = k + p := ⟨i - p, by omega⟩
    have e : slide (fun i => (x i).close * (x i).volume) p (k + p + 1) = slide (fun i => (x i).close * (x i).volume) p (k + p)
      + (x (k + p)).close * (x (k + p)).volume - (x k).close * (x k).volume := by simp [slide]
    have e' : slide (fun i => (x i).volume) p (k + p + 1) = slide (fun i => (x i).volume) p (k + p)
      + (x (k + p)).volume - (x k).volume := by simp [slide]
    run_simp [show ((k + p : Nat) : Int) - p = (k : Int) by omega]
    rw [pre_snoc (m := k + p + 1 + 1 - p) (by omega)]
    · rw [e, e']
    · simp only [show k + p + 1 - p + p = k + p + 1 by omega, e, e']
  · rw [finish_ok (by simp; omega), show N + 1 - p = N - (p - 1) by omega]

/-- Upward / downward moves as signals: entry `k` compares inputs `k+1` and `k`. -/
def upSig (x : Nat → R) (k : Nat) : R := upward (x (k + 1)) (x k)
def downSig (x : Nat → R) (k : Nat) : R := downward (x (k + 1)) (x k)

theorem rsi_run (o : Nat → R) (p : Nat) (hc : toInt (o 0) = .ok (p : Int)) (hp : 1 ≤ p) :
    Computes rsiBatch o p (fun x j => rsiOut (wildersRec p (upSig x) j) (wildersRec p (downSig x) j)) := by
  intro x N
  unfold rsiBatch
  simp only [hc, bind_ok, rsiStart, length_pre, pure_eq]
  rw [if_neg (by omega)]
  split
  · rename_i h; simp [show N - p = 0 by omega]
  refine forUp_bind 1 (p + 1) (fun i => (sumTo (upSig x) (i - 1), sumTo (downSig x) (i - 1))) rfl (by omega) rfl
    (by omega) ?_ ?_
  · intro i h1 hi
    obtain ⟨k, rfl⟩ : ∃ k, i = k + 1 := ⟨i - 1, by omega⟩
    run_simp [show ((k + 1 : Nat) : Int) - 1 = (k : Int) by omega, Nat.add_sub_cancel, sumTo, upSig, downSig]
  run_simp []
  refine forUp_bind (p + 1) N (fun i => (wildersRec p (upSig x) (i - (p + 1)), wildersRec p (downSig x) (i - (p + 1)),
    pre (fun j => rsiOut (wildersRec p (upSig x) j) (wildersRec p (downSig x) j)) (i - p))) (by omega) rfl ?_
    (by omega) ?_ ?_
  · simp [pre_succ, wildersRec, show p + 1 - p = 1 by omega]
  · intro i h1 hi
    obtain ⟨k, rfl⟩ : ∃ k, i = k + (p + 1) := ⟨i - (p + 1), by omega⟩
    run_simp [show ((k + (p + 1) : Nat) : Int) - 1 = ((k + p : Nat) : Int) by omega, Nat.add_sub_cancel,
      show k + (p + 1) - p = k + 1 by omega, show k + (p + 1) + 1 - p = k + 1 + 1 by omega,
      show k + (p + 1) + 1 - (p + 1) = k + 1 by omega]
    rw [pre_snoc (m := k + 1 + 1) rfl]
    · rfl
    · rfl
  · run_simp []

theorem cmo_run (o : Nat → R) (p : Nat) (hc : toInt (o 0) = .ok (p : Int)) (hp : 1 ≤ p) :
    Computes cmoBatch o p (fun x j => cmoOut
      (slideS (upSig x) p (j + (p - 1)) + upSig x (j + (p - 1)))
      (slideS (downSig x) p (j + (p - 1)) + downSig x (j + (p - 1)))) := by
  intro x N
  unfold cmoBatch
  simp only [hc, bind_ok, cmoStart, length_pre, pure_eq]
  rw [if_neg (by omega)]
  split
  · rename_i h; simp [show N - p = 0 by omega]
  rw [show max 1 (min (p : Int) N) = p by omega]
  refine forUp_bind 1 p (fun i => (slideS (upSig x) p (i - 1), slideS (downSig x) p (i - 1))) rfl rfl rfl
    (by omega) ?_ ?_
  · intro i h1 hi
    obtain ⟨k, rfl⟩ : ∃ k, i = k + 1 := ⟨i - 1, by omega⟩
    run_simp [show ((k + 1 : Nat) : Int) - 1 = (k : Int) by omega, Nat.add_sub_cancel, slideS,
      if_pos (show k < p - 1 by omega), upSig, downSig]
  refine forUp_bind p N (fun i => (slideS (upSig x) p (i - 1), slideS (downSig x) p (i - 1),
    pre (fun j => cmoOut
      (slideS (upSig x) p (j + (p - 1)) + upSig x (j + (p - 1)))
      (slideS (downSig x) p (j + (p - 1)) + downSig x (j + (p - 1)))) (i - p))) rfl rfl (by simp) (by omega) ?_ ?_
  · intro i h1 hi
    obtain ⟨k, rfl⟩ : ∃ k, i = k + (p - 1) + 1 := ⟨i - p, by omega⟩
    run_simp [show ((k + (p - 1) + 1 : Nat) : Int) - 1 = ((k + (p - 1) : Nat) : Int) by omega,
      show ((k + (p - 1) + 1 : Nat) : Int) - p + 1 = ((k + 1 : Nat) : Int) by omega,
      show ((k + 1 : Nat) : Int) - 1 = (k : Int) by omega,
      Nat.add_sub_cancel, slideS, if_neg (show ¬ k + (p - 1) < p - 1 by omega)]
    rw [pre_snoc (m := k + (p - 1) + 1 + 1 - p) (by omega)]
    · rfl
    · rw [show k + (p - 1) + 1 - p + (p - 1) = k + (p - 1) by omega]; rfl
  · run_simp []

/-- True range as a signal; the first bar has no previous close. -/
def trSig (x : Nat → HLC R) : Nat → R
  | 0 => (x 0).high - (x 0).low
  | i + 1 => trueRange (x (i + 1)).high (x (i + 1)).low (x i).close

theorem tr_run (o : Nat → R) : Computes trBatch o 0 trSig := by
  intro x N
  unfold trBatch
  simp only [length_pre]
  rcases Nat.eq_zero_or_pos N with rfl | hN
  · rfl
  refine forUp_bind 0 1 (pre (trSig x)) rfl (by omega) rfl (by omega) ?_ ?_
  · intro i _ hi
    obtain rfl : i = 0 := by omega
    run_simp []
    rw [pre_snoc rfl (by rfl)]
  refine forUp_bind 1 N (pre (trSig x)) (by omega) rfl rfl (by omega) ?_ ?_
  · intro i h1 hi
    obtain ⟨k, rfl⟩ : ∃ k, i = k + 1 := ⟨i - 1, by omega⟩
    run_simp [show ((k + 1 : Nat) : Int) - 1 = (k : Int) by omega]
    rw [pre_snoc rfl (by rfl)]
  · rfl

theorem atr_run (o : Nat → R) (p : Nat) (hc : toInt (o 0) = .ok (p : Int)) (hp : 1 ≤ p) :
    Computes atrBatch o (p - 1) (fun x => wildersRec p (trSig x)) := by
  intro x N
  unfold atrBatch
  simp only [hc, bind_ok, atrStart, startM1_ok hc hp, length_pre, pure_eq]
  rw [if_neg (by omega)]
  split
  · rename_i h; simp [show N - (p - 1) = 0 by omega]
  run_simp []
  refine forUp_bind 1 p (sumTo (trSig x)) rfl rfl rfl (by omega) ?_ ?_
  · intro i h1 hi
    obtain ⟨k, rfl⟩ : ∃ k, i = k + 1 := ⟨i - 1, by omega⟩
    run_simp [show ((k + 1 : Nat) : Int) - 1 = (k : Int) by omega, sumTo, trSig]
  refine forUp_bind p N (fun i => (wildersRec p (trSig x) (i - p), pre (wildersRec p (trSig x)) (i + 1 - p))) rfl rfl ?_
    (by omega) ?_ ?_
  · simp [pre_succ, wildersRec]
  · intro i h1 hi
    obtain ⟨k, rfl⟩ : ∃ k, i = k + p := ⟨i - p, by omega⟩
    obtain ⟨q, rfl⟩ : ∃ q, p = q + 1 := ⟨p - 1, by omega⟩
    run_simp [Nat.add_sub_cancel, show ((k + (q + 1) : Nat) : Int) - 1 = ((k + q : Nat) : Int) by omega]
    rw [show k + (q + 1) + 1 - (q + 1) = k + 1 by omega, show k + (q + 1) + 1 + 1 - (q + 1) = k + 1 + 1 by omega,
      pre_snoc rfl (by rfl)]
    rfl
  · rw [finish_ok (by simp; omega), show N + 1 - p = N - (p - 1) by omega]

theorem natr_run (o : Nat → R) (p : Nat) (hc : toInt (o 0) = .ok (p : Int)) (hp : 1 ≤ p) :
    Computes natrBatch o (p - 1) (fun x j => natrOut (wildersRec p (trSig x) j) (x (j + (p - 1))).close) := by
  intro x N
  unfold natrBatch
  simp only [hc, bind_ok, natrStart, startM1_ok hc hp, length_pre, pure_eq]
  rw [if_neg (by omega)]
  split
  · rename_i h; simp [show N - (p - 1) = 0 by omega]
  run_simp []
  refine forUp_bind 1 p (sumTo (trSig x)) rfl rfl rfl (by omega) ?_ ?_
  · intro i h1 hi
    obtain ⟨k, rfl⟩ : ∃ k, i = k + 1 := ⟨i - 1, by omega⟩
    run_simp [show ((k + 1 : Nat) : Int) - 1 = (k : Int) by omega, sumTo, trSig]
  refine forUp_bind p N (fun i => (wildersRec p (trSig x) (i - p),
    pre (fun j => natrOut (wildersRec p (trSig x) j) (x (j + (p - 1))).close) (i + 1 - p))) rfl rfl ?_
    (by omega) ?_ ?_
  · simp [pre_succ, wildersRec, show ((p : Int) - 1).toNat = p - 1 by omega]
  · intro i h1 hi
    obtain ⟨k, rfl⟩ : ∃ k, i = k + p := ⟨i - p, by omega⟩
    obtain ⟨q, rfl⟩ : ∃ q, p = q + 1 := ⟨p - 1, by omega⟩
    run_simp [Nat.add_sub_cancel, show ((k + (q + 1) : Nat) : Int) - 1 = ((k + q : Nat) : Int) by omega]
    rw [show k + (q + 1) + 1 - (q + 1) = k + 1 by omega, show k + (q + 1) + 1 + 1 - (q + 1) = k + 1 + 1 by omega,
      pre_snoc rfl (by rw [show k + 1 + q = k + (q + 1) by omega]; rfl)]
    rfl
  · rw [finish_ok (by simp; omega), show N + 1 - p = N - (p - 1) by omega]

theorem atrRef_run (o : Nat → R) (p : Nat) (hc : toInt (o 0) = .ok (p : Int)) (hp : 1 ≤ p) :
    Computes atrRef o (p - 1) (fun x => wildersRec p (trSig x)) := by
  intro x N
  have h := tr_run o x N
  have h2 := wilders_run o p hc hp (trSig x) N
  simp only [Nat.sub_zero] at h
  unfold atrRef
  simp [h, h2, atrStart, startM1_ok hc hp, wildersStart, hc, asrt]

/-- Sum of the true ranges as the atr stream adds them. -/
def atrSum (x : Nat → HLC R) : Nat → R
  | 0 => c! 0
  | n + 1 => if n = 0 then (x 0).high - (x 0).low else atrSum x n + trSig x n

/-- Values of the atr stream. -/
def atrVal (p : Nat) (x : Nat → HLC R) : Nat → R
  | 0 => atrSum x p * (c! 1 / ((p : Int) : R))
  | j + 1 => (trSig x (j + p) - atrVal p x j) * (c! 1 / ((p : Int) : R)) + atrVal p x j

theorem atrPhases_ordered (k : Int) : Phases.OrderedFrom (-(k - 1)) (atrPhases (R := R) k) := by
  refine Phases.orderedFrom_of ⟨?_, fun p _ => ⟨_, List.mem_cons_of_mem _ (List.mem_cons_of_mem _ (List.mem_cons_self ..)), rfl⟩⟩
  simp only [atrPhases, List.mem_cons, List.not_mem_nil, or_false, forall_eq_or_imp, forall_eq,
    decide_eq_false_iff_not]
  refine ⟨fun p h1 h2 => by omega, fun p h1 h2 => by omega, fun p h1 h2 => by simp at h2⟩

theorem atr_stream_run (o : Nat → R) (p : Nat) (hc : toInt (o 0) = .ok (p : Int)) (hp : 1 ≤ p) :
    (atr (R := R)).StreamComputes o (p - 1) (atrVal p) := by
  refine streamComputes_of' (I := atr) (k := (p : Int)) (s0 := ⟨c! 0, c! 0, c! 0⟩) ?_
    (by have := atrPhases_ordered (R := R) p; rwa [show -((p : Int) - 1) = -((p - 1 : Nat) : Int) by omega] at this)
    (fun x n s => (n ≤ p → s.sum = atrSum x n) ∧ (p ≤ n → s.last = atrVal p x (n - p)) ∧
      (1 ≤ n → s.lastClose = (x (n - 1)).close)) (fun x => ⟨fun _ => rfl, by omega, by omega⟩) ?_
  · simp only [atr, atrNew, hc, bind_ok, atrStart, startM1_ok hc hp]
    rw [if_neg (by omega)]; rfl
  · rintro x n ⟨sum, last, lc⟩ ⟨h1, h2, h3⟩
    simp only at h1 h2 h3
    simp only [barStep, atr, atrPhases, List.find?]
    by_cases hn0 : n = 0
    · subst hn0
      rw [decide_eq_true (by omega)]
      simp only
      by_cases hp1 : p = 1
      · subst hp1
        exact ⟨⟨(x 0).high - (x 0).low, ((x 0).high - (x 0).low) * (c! 1 / c! 1), (x 0).close⟩,
          by simp [atrVal, atrSum], by simp [atrSum], by simp [atrVal, atrSum], by simp⟩
      · rw [if_neg (by omega), if_pos (by omega)]
        exact ⟨_, rfl, fun _ => by simp [atrSum], by omega, by simp⟩
    · rw [decide_eq_false (by omega)]
      simp only
      have h3 := h3 (by omega)
      obtain ⟨k, rfl⟩ : ∃ k, n = k + 1 := ⟨n - 1, by omega⟩
      simp only [Nat.add_sub_cancel] at h3
      by_cases hlt : k + 1 < p
      · rw [decide_eq_true (by omega)]
        simp only
        have h1 := h1 (by omega)
        by_cases hlast : k + 1 = p - 1
        · rw [if_pos (by omega), if_neg (by omega)]
          have e : atrSum x (k + 1 + 1) = sum + trueRange (x (k + 1)).high (x (k + 1)).low lc := by
            rw [atrSum, if_neg (by omega), h1, h3]; rfl
          refine ex_ok ?_ ⟨?_, ?_, ?_⟩
          rotate_left 1
          · intro _; exact e.symm
          · intro _; show _ = _; rw [show k + 1 + 1 - p = 0 by omega, atrVal, show p = k + 1 + 1 by omega, e]
          · intro _; rfl
          · rw [show k + 1 - (p - 1) = 0 by omega, atrVal, ← e, show k + 1 + 1 = p by omega]
        · rw [if_neg (by omega), if_pos (by omega)]
          refine ⟨_, rfl, fun _ => ?_, by omega, fun _ => rfl⟩
          rw [atrSum, if_neg (by omega), h1, h3]; rfl
      · rw [decide_eq_false (by omega)]
        simp only
        have h2 := h2 (by omega)
        have e : atrVal p x (k + 1 + 1 - p) = (trueRange (x (k + 1)).high (x (k + 1)).low lc - last) * (c! 1 / ((p : Int) : R)) + last := by
          rw [show k + 1 + 1 - p = (k + 1 - p) + 1 by omega, atrVal, h2, h3, show k + 1 - p + p = k + 1 by omega]; rfl
        rw [if_neg (by omega)]
        refine ⟨⟨sum, (trueRange (x (k + 1)).high (x (k + 1)).low lc - last) * (c! 1 / ((p : Int) : R)) + last,
          (x (k + 1)).close⟩, ?_, by intro h; omega, fun _ => e.symm, fun _ => rfl⟩
        rw [show k + 1 - (p - 1) = k + 1 + 1 - p by omega, e]

end Verif
