/- rvi, pbands, posc: the runs, in any arithmetic (helper lemmas). -/
import Verif.Model.Regress
import Verif.Proof.Loop
import Verif.Proof.Chan
import Verif.Proof.Trend
import Verif.Proof.Flow

set_option linter.unusedSectionVars false
set_option linter.unusedSimpArgs false
set_option linter.unusedVariables false

namespace Verif
section Any
variable {R : Type} [Num R]

/-- The constants for a period that fits. -/
def regK (p : Nat) : R × R :=
  ((((p : Int) * ((p : Int) + 1) : Int) : R) / c! 2, (((p : Int) * ((p : Int) + 1) * (2 * (p : Int) + 1) : Int) : R) / c! 6)

theorem regConst_ok (p : Nat) (h : p * (p + 1) * (2 * p + 1) ≤ 2147483647) : regConst (R := R) (p : Int) = .ok (regK p) := by
  have e1 : (p : Int) * ((p : Int) + 1) = ((p * (p + 1) : Nat) : Int) := by push_cast; ring
  have e2 : (p : Int) * ((p : Int) + 1) * (2 * (p : Int) + 1) = ((p * (p + 1) * (2 * p + 1) : Nat) : Int) := by push_cast; ring
  have h1 : p * (p + 1) ≤ p * (p + 1) * (2 * p + 1) := Nat.le_mul_of_pos_right _ (by omega)
  have h2 : p ≤ p * (p + 1) := Nat.le_mul_of_pos_right _ (by omega)
  have h3 : p ≤ 1000000000 ∨ 1000000000 < p := by omega
  have h4 : p ≤ 1000000000 := by
    rcases h3 with h3 | h3
    · exact h3
    · have : p * 2 ≤ p * (p + 1) := Nat.mul_le_mul le_rfl (by omega)
      have : p * (p + 1) * 2 ≤ p * (p + 1) * (2 * p + 1) := Nat.mul_le_mul le_rfl (by omega)
      omega
  unfold regConst
  rw [i32_ok _ (by omega) (by omega), bind_ok, i32_ok _ (by omega) (by omega), bind_ok, i32_ok _ (by omega) (by omega), bind_ok,
    i32_ok _ (by omega) (by omega), bind_ok, i32_ok _ (by omega) (by omega), bind_ok]
  rfl

theorem regConst_err (p : Nat) (h : 2147483647 < p * (p + 1) * (2 * p + 1)) : regConst (R := R) (p : Int) = .error .intRange := by
  have e2 : (p : Int) * ((p : Int) + 1) * (2 * (p : Int) + 1) = ((p * (p + 1) * (2 * p + 1) : Nat) : Int) := by push_cast; ring
  have key : ∀ v : Int, i32 v = .ok v ∨ i32 v = .error .intRange := by
    intro v; unfold i32; split <;> simp
  unfold regConst
  rcases key ((p : Int) + 1) with h1 | h1
  swap
  · rw [h1]; rfl
  rw [h1, bind_ok]
  rcases key ((p : Int) * ((p : Int) + 1)) with h2 | h2
  swap
  · rw [h2]; rfl
  rw [h2, bind_ok]
  rcases key (2 * (p : Int)) with h3 | h3
  swap
  · rw [h3]; rfl
  rw [h3, bind_ok]
  rcases key (2 * (p : Int) + 1) with h4 | h4
  swap
  · rw [h4]; rfl
  rw [h4, bind_ok, e2]
  unfold i32
  rw [if_neg (by omega)]
  rfl

/-- `xy_sum`, `y_sum` before bar `n`. -/
def regAt (p : Nat) (x : Nat → R) (n : Nat) : RegS R :=
  if n < p - 1 then ⟨(trXY x n).1, (trXY x n).2⟩ else ⟨(lrS x p (n - (p - 1))).1, (lrS x p (n - (p - 1))).2⟩

theorem regAt_zero (p : Nat) (x : Nat → R) : regAt p x 0 = ⟨c! 0, c! 0⟩ := by
  unfold regAt
  split
  · rfl
  · rw [Nat.zero_sub, lrS, show p - 1 = 0 by omega]; rfl

theorem regAt_warm (p : Nat) (x : Nat → R) (n : Nat) (h : n < p - 1) :
    (⟨(regAt p x n).xy + x n * (((n : Int) + 1 : Int) : R), (regAt p x n).y + x n⟩ : RegS R) = regAt p x (n + 1) := by
  unfold regAt
  rw [if_pos h]
  by_cases h' : n + 1 < p - 1
  · rw [if_pos h']; rfl
  · rw [if_neg h', show n + 1 - (p - 1) = 0 by omega, lrS, show p - 1 = n + 1 by omega]; rfl

theorem regAt_xy (p : Nat) (hp : 1 ≤ p) (x : Nat → R) (n : Nat) (h : ¬ n < p - 1) :
    (regAt p x n).xy + x n * ((p : Int) : R) = lrXY x p (n - (p - 1)) := by
  unfold regAt lrXY
  rw [if_neg h, show n - (p - 1) + p - 1 = n by omega]
theorem regAt_y (p : Nat) (hp : 1 ≤ p) (x : Nat → R) (n : Nat) (h : ¬ n < p - 1) :
    (regAt p x n).y + x n = lrY x p (n - (p - 1)) := by
  unfold regAt lrY
  rw [if_neg h, show n - (p - 1) + p - 1 = n by omega]
theorem regAt_step (p : Nat) (hp : 1 ≤ p) (x : Nat → R) (n : Nat) (h : ¬ n < p - 1) :
    (⟨lrXY x p (n - (p - 1)) - lrY x p (n - (p - 1)), lrY x p (n - (p - 1)) - x (n - (p - 1))⟩ : RegS R) = regAt p x (n + 1) := by
  unfold regAt
  rw [if_neg (by omega), show n + 1 - (p - 1) = n - (p - 1) + 1 by omega, lrS]
  rfl

/-- The slope at output `j`, computed from the constants `k`. -/
def regB (p : Nat) (k : R × R) (x : Nat → R) (j : Nat) : R := regSlope ((p : Int) : R) k (lrXY x p j) (lrY x p j)

/-! ### rvi -/

/-- `above` at output `j`. -/
def rviAbove (p : Nat) (k : R × R) (x : Nat → R) (j : Nat) : R :=
  x (j + (p - 1)) - (lrY x p j / ((p : Int) : R) - regB p k x j * k.1 / ((p : Int) : R) + regB p k x j * ((p : Int) : R))

/-- The averages before output `j`. -/
def rviAt (p : Nat) (q : Int) (k : R × R) (x : Nat → R) : Nat → RviE R
  | 0 => ⟨c! 0, c! 0⟩
  | j + 1 =>
    let e := rviAt p q k x j
    let a := rviAbove p k x j
    if c! 0 < a then ⟨(a * a / ((p : Int) : R) - e.gains) * c! 2 / (q : R) + e.gains, e.losses⟩
    else ⟨e.gains, (a * a / ((p : Int) : R) - e.losses) * c! 2 / (q : R) + e.losses⟩

/-- What rvi writes. -/
def rviOut (e : RviE R) : R := if e.gains == c! 0 then c! 50 else e.gains / (e.gains + e.losses) * c! 100

theorem rviBar_ok (p : Nat) (hp : 1 ≤ p) (ema : Int) (q : Int) (hq : i32 (ema + 1) = .ok q) (k : R × R) (x : Nat → R) (n : Nat)
    (h : ¬ n < p - 1) :
    rviBar (p : Int) ema k (x n) (lrXY x p (n - (p - 1))) (lrY x p (n - (p - 1))) (rviAt p q k x (n - (p - 1))) =
      .ok (rviAt p q k x (n + 1 - (p - 1)), rviOut (rviAt p q k x (n - (p - 1) + 1))) := by
  unfold rviBar
  rw [hq, bind_ok, show n + 1 - (p - 1) = n - (p - 1) + 1 by omega, rviAt]
  simp only [rviAbove, regB, rviOut, show n - (p - 1) + (p - 1) = n by omega]
  rfl

theorem rviLoops_ordered (ema period : Int) (k : R × R) (xs : List R) : Phases.Ordered (rviLoops ema period k xs) := by
  phases_ordered rviLoops
theorem rviPhases_ordered (c : RviK R) : Phases.Ordered (rviPhases c) := by
  phases_ordered rviPhases

theorem rvi_run (o : Nat → R) (p e : Nat) (hce : toInt (o 0) = .ok (e : Int)) (hcp : toInt (o 1) = .ok (p : Int)) (he : 1 ≤ e)
    (hp : 1 ≤ p) (hs : rviStart o = .ok ((p - 1 : Nat) : Int)) (hb : e < 2147483647)
    (hpp : p * (p + 1) * (2 * p + 1) ≤ 2147483647) :
    Computes rviBatch o (p - 1) (fun x j => rviOut (rviAt p ((e : Int) + 1) (regK p) x (j + 1))) := by
  refine computes_of_loop2 (phs := fun xs => rviLoops e p (regK p) xs) (p0 := 0) (s0 := (⟨c! 0, c! 0⟩, ⟨c! 0, c! 0⟩)) ?_
    (fun xs => (rviLoops_ordered _ _ _ _).from _)
    (fun x n => (regAt p x n, rviAt p ((e : Int) + 1) (regK p) x (n - (p - 1)))) (fun x => by rw [regAt_zero, Nat.zero_sub]; rfl) ?_
  · intro xs
    simp only [rviBatch, hce, hcp, bind_ok, hs]
    rw [if_neg (by omega), if_neg (by omega), regConst_ok p hpp]
    rfl
  · intro x N n hn
    simp only [barStep, rviLoops, List.find?]
    by_cases h : n < p - 1
    · rw [decide_eq_true (by omega), if_pos h]
      simp only [Int.zero_add, pure_eq, regAt_warm p x n h, show n + 1 - (p - 1) = n - (p - 1) by omega]
    · rw [decide_eq_false (by omega), if_neg h]
      simp only [regAt_xy p hp x n h, regAt_y p hp x n h]
      rw [rviBar_ok p hp _ _ (i32_ok _ (by omega) (by omega)) _ x n h, bind_ok, rd_at (n - (p - 1)) (by omega) (by omega), bind_ok,
        regAt_step p hp x n h]
      rfl

theorem rvi_stream_run (o : Nat → R) (p e : Nat) (hce : toInt (o 0) = .ok (e : Int)) (hcp : toInt (o 1) = .ok (p : Int))
    (hle : ¬ o 0 < c! 1) (hlp : ¬ o 1 < c! 1) (hm : toInt (o 1 + c! 1) = .ok ((p + 1 : Nat) : Int)) (he : 1 ≤ e)
    (hp : 1 ≤ p) (hs : rviStart o = .ok ((p - 1 : Nat) : Int)) (hb : e < 2147483647) :
    (rvi (R := R)).StreamComputes o (p - 1) (fun x j => rviOut (rviAt p ((e : Int) + 1) (regConstR (o 1)) x (j + 1))) := by
  refine streamComputes_traj (I := rvi) (k := ⟨(e : Int), (p : Int), regConstR (o 1)⟩)
    (s0 := (⟨c! 0, c! 0⟩, ⟨c! 0, c! 0⟩, Ring.after (fun _ => c! 0) (p + 1) 0)) ?_ (rviPhases_ordered _)
    (fun x n => (regAt p x n, rviAt p ((e : Int) + 1) (regConstR (o 1)) x (n - (p - 1)), Ring.after x (p + 1) n))
    (fun x => by rw [regAt_zero, Nat.zero_sub]; rfl) ?_
  · simp only [rvi, rviNew, hce, hcp, hs, bind_ok, pure_eq]
    rw [if_neg hle, if_neg hlp, hm, bind_ok, Ring.make_after (fun _ => c! 0) _ (by omega), bind_ok]
  · intro x n
    simp only [barStep, rvi, rviPhases, List.find?]
    by_cases h : n < p - 1
    · rw [decide_eq_true (by omega), if_pos h]
      simp only []
      rw [Ring.after_set _ _ (by omega) n _ rfl, bind_ok, Ring.now_step,
        show -((p - 1 : Nat) : Int) + (n : Int) - (-(p : Int) + 1) + 1 = (n : Int) + 1 by omega]
      simp only [regAt_warm p x n h, pure_eq, show n + 1 - (p - 1) = n - (p - 1) by omega]
    · rw [decide_eq_false (by omega), if_neg h]
      simp only [regAt_xy p hp x n h, regAt_y p hp x n h]
      rw [Ring.after_set _ _ (by omega) n _ rfl, bind_ok, rviBar_ok p hp _ _ (i32_ok _ (by omega) (by omega)) _ x n h, bind_ok,
        Ring.now_get _ _ _ _ (p - 1) (by omega) (by omega) (by omega), bind_ok, Ring.now_step,
        regAt_step p hp x n h]
      rfl

/-! ### pbands -/

/-- Greatest of `f 0` and `f j + j b`, `j ≤ k`, as the loop finds it. -/
def slopeMax (f : Nat → R) (b : R) : Nat → R
  | 0 => f 0
  | k + 1 => stdMax (slopeMax f b k) (f (k + 1) + (((k + 1 : Nat) : Int) : R) * b)
/-- Least of `f 0` and `f j + j b`, `j ≤ k`, as the loop finds it. -/
def slopeMin (f : Nat → R) (b : R) : Nat → R
  | 0 => f 0
  | k + 1 => stdMin (slopeMin f b k) (f (k + 1) + (((k + 1 : Nat) : Int) : R) * b)

theorem projMax_ok (f : Nat → R) (b : R) (p : Nat) (hp : 1 ≤ p) (at_ : Int → M R)
    (h : ∀ j : Nat, 1 ≤ j → j < p → at_ (j : Int) = .ok (f j)) : projMax (f 0) (p : Int) b at_ = .ok (slopeMax f b (p - 1)) := by
  unfold projMax
  refine forUp_nat (a := 1) (b := p) (fun i => slopeMax f b (i - 1)) hp ?_
  intro i h1 h2
  obtain ⟨i, rfl⟩ : ∃ k, i = k + 1 := ⟨i - 1, by omega⟩
  rw [h _ h1 h2, bind_ok]
  rfl
theorem projMin_ok (f : Nat → R) (b : R) (p : Nat) (hp : 1 ≤ p) (at_ : Int → M R)
    (h : ∀ j : Nat, 1 ≤ j → j < p → at_ (j : Int) = .ok (f j)) : projMin (f 0) (p : Int) b at_ = .ok (slopeMin f b (p - 1)) := by
  unfold projMin
  refine forUp_nat (a := 1) (b := p) (fun i => slopeMin f b (i - 1)) hp ?_
  intro i h1 h2
  obtain ⟨i, rfl⟩ : ∃ k, i = k + 1 := ⟨i - 1, by omega⟩
  rw [h _ h1 h2, bind_ok]
  rfl

/-- The bands at output `j` for the slope `b`. -/
def bandAt (p : Nat) (b : R) (x : Nat → HLC R) (j : Nat) : Pband R :=
  ⟨slopeMin (fun i => (x (j + (p - 1) - i)).low) b (p - 1), slopeMax (fun i => (x (j + (p - 1) - i)).high) b (p - 1)⟩

/-- The closing prices. -/
def closes (x : Nat → HLC R) (n : Nat) : R := (x n).close

theorem pbandsLoops_ordered (period : Int) (k : R × R) (xs : List (HLC R)) : Phases.Ordered (pbandsLoops period k xs) := by
  phases_ordered pbandsLoops
theorem pbandsPhases_ordered (c : PbandsK R) : Phases.Ordered (pbandsPhases c) := by
  phases_ordered pbandsPhases

theorem projMax_batch (p : Nat) (hp : 1 ≤ p) (b : R) (x : Nat → HLC R) (N n : Nat) (hn : n < N) (h : ¬ n < p - 1) :
    (projMax (x n).high (p : Int) b fun j => do return (← rd (pre x N) ((n : Int) - j)).high) =
      .ok (bandAt p b x (n - (p - 1))).upper := by
  have := projMax_ok (fun i => (x (n - (p - 1) + (p - 1) - i)).high) b p hp
    (fun j => do return (← rd (pre x N) ((n : Int) - j)).high) (fun j h1 h2 => by
      rw [rd_at (n - j) (by omega) (by omega), bind_ok, show n - (p - 1) + (p - 1) - j = n - j by omega]; rfl)
  simp only [show n - (p - 1) + (p - 1) - 0 = n by omega] at this
  exact this
theorem projMin_batch (p : Nat) (hp : 1 ≤ p) (b : R) (x : Nat → HLC R) (N n : Nat) (hn : n < N) (h : ¬ n < p - 1) :
    (projMin (x n).low (p : Int) b fun j => do return (← rd (pre x N) ((n : Int) - j)).low) =
      .ok (bandAt p b x (n - (p - 1))).lower := by
  have := projMin_ok (fun i => (x (n - (p - 1) + (p - 1) - i)).low) b p hp
    (fun j => do return (← rd (pre x N) ((n : Int) - j)).low) (fun j h1 h2 => by
      rw [rd_at (n - j) (by omega) (by omega), bind_ok, show n - (p - 1) + (p - 1) - j = n - j by omega]; rfl)
  simp only [show n - (p - 1) + (p - 1) - 0 = n by omega] at this
  exact this

theorem pbands_run (o : Nat → R) (p : Nat) (hcp : toInt (o 0) = .ok (p : Int)) (hp : 1 ≤ p)
    (hs : pbandsStart o = .ok ((p - 1 : Nat) : Int)) (hpp : p * (p + 1) * (2 * p + 1) ≤ 2147483647) :
    Computes pbandsBatch o (p - 1) (fun x j => bandAt p (regB p (regK p) (closes x) j) x j) := by
  refine computes_of_loop2 (phs := fun xs => pbandsLoops p (regK p) xs) (p0 := 0) (s0 := ⟨c! 0, c! 0⟩) ?_
    (fun xs => (pbandsLoops_ordered _ _ _).from _) (fun x n => regAt p (closes x) n) (fun x => (regAt_zero _ _).symm) ?_
  · intro xs
    simp only [pbandsBatch, hcp, bind_ok, hs]
    rw [if_neg (by omega), regConst_ok p hpp]
    rfl
  · intro x N n hn
    simp only [barStep, pbandsLoops, List.find?]
    by_cases h : n < p - 1
    · rw [decide_eq_true (by omega), if_pos h]
      simp only [Int.zero_add, pure_eq]
      exact congrArg (fun s => Except.ok (s, [])) (regAt_warm p (closes x) n h)
    · rw [decide_eq_false (by omega), if_neg h]
      have e1 := regAt_xy p hp (closes x) n h
      have e2 := regAt_y p hp (closes x) n h
      have e3 := regAt_step p hp (closes x) n h
      simp only [closes] at e1 e2 e3
      simp only [Int.zero_add]
      rw [projMax_batch p hp _ x N n hn h, bind_ok, projMin_batch p hp _ x N n hn h, bind_ok,
        rd_at (n - (p - 1)) (by omega) (by omega), bind_ok, e1, e2, e3]
      rfl

theorem projRow_ok (o : Nat → R) (p : Nat) (hp : 1 ≤ p) (hb : bound (o 0) = .ok (p : Int)) (x : Nat → HLC R) (N n : Nat) (hn : n < N)
    (h : ¬ n < p - 1) (b : Nat → R) (start : Int) (hst : start = ((p - 1 : Nat) : Int)) :
    projRow o (pre x N) (pre b (N - (p - 1))) start (n : Int) = .ok (x n, bandAt p (b (n - (p - 1))) x (n - (p - 1))) := by
  have hbs : rd (pre b (N - (p - 1))) ((n : Int) - start) = .ok (b (n - (p - 1))) := rd_at _ (by omega) (by omega)
  unfold projRow
  rw [rd_at n rfl hn, bind_ok, hb, bind_ok, hbs]
  have h1 : (forUp 1 (p : Int) (x n).high fun j m => do
      let v ← rd (pre x N) ((n : Int) - j)
      let a ← (.ok (b (n - (p - 1))) : M R)
      return stdMax m (v.high + (j : R) * a)) = .ok (bandAt p (b (n - (p - 1))) x (n - (p - 1))).upper := by
    refine Eq.trans ?_ (projMax_batch p hp (b (n - (p - 1))) x N n hn h)
    unfold projMax
    congr 1
    funext j m
    beta_reduce
    cases rd (pre x N) ((n : Int) - j) <;> rfl
  have h2 : (forUp 1 (p : Int) (x n).low fun j m => do
      let v ← rd (pre x N) ((n : Int) - j)
      let a ← (.ok (b (n - (p - 1))) : M R)
      return stdMin m (v.low + (j : R) * a)) = .ok (bandAt p (b (n - (p - 1))) x (n - (p - 1))).lower := by
    refine Eq.trans ?_ (projMin_batch p hp (b (n - (p - 1))) x N n hn h)
    unfold projMin
    congr 1
    funext j m
    beta_reduce
    cases rd (pre x N) ((n : Int) - j) <;> rfl
  rw [h1, bind_ok, h2, bind_ok]
  rfl

theorem pbandsRef_run (o : Nat → R) (p : Nat) (hcp : toInt (o 0) = .ok (p : Int)) (hp : 1 ≤ p) (hb : bound (o 0) = .ok (p : Int))
    (hs : pbandsStart o = .ok ((p - 1 : Nat) : Int)) (hpp : p * p ≤ 2147483647) :
    Computes pbandsRef o (p - 1) (fun x j => bandAt p (lrB (closes x) p j) x j) := by
  intro x N
  unfold pbandsRef
  rw [linregStart, hcp, bind_ok, startM1_ok hcp hp, bind_ok, map_pre,
    linregslope_run o p hcp hp hpp (fun i => (x i).close) N, bind_ok, length_pre]
  by_cases hN : N ≤ p - 1
  · rw [forUp_empty (by omega), bind_ok, show N - (p - 1) = 0 by omega]; rfl
  refine forUp_bind (p - 1) N (fun i => pre (fun j => bandAt p (lrB (closes x) p j) x j) (i - (p - 1))) (by omega) rfl
    (by simp) (by omega) ?_ rfl
  intro i h1 h2
  rw [projRow_ok o p hp hb x N i h2 (by omega) _ _ (by omega), bind_ok, hs, bind_ok, show i + 1 - (p - 1) = i - (p - 1) + 1 by omega]
  exact wr_pre _ _ _ _ (by omega) rfl

/-! ### posc -/

/-- The value before smoothing at output `j`, from the slopes `b`. -/
def poscRaw (p : Nat) (b : Nat → R) (x : Nat → HLC R) (j : Nat) : R := poscVal (x (j + (p - 1))).close (bandAt p (b j) x j)

/-- The smoothed values. -/
def poscSeq (q : R) (f : Nat → R) : Nat → R
  | 0 => f 0
  | j + 1 => poscEma q (f (j + 1)) (poscSeq q f j)

theorem poscLoops_ordered (ema period : Int) (k : R × R) (xs : List (HLC R)) : Phases.Ordered (poscLoops ema period k xs) := by
  phases_ordered poscLoops
theorem poscPhases_ordered (c : PoscK R) : Phases.Ordered (poscPhases c) := by
  phases_ordered poscPhases

theorem posc_run (o : Nat → R) (p e : Nat) (hcp : toInt (o 0) = .ok (p : Int)) (hce : toInt (o 1) = .ok (e : Int)) (hp : 1 ≤ p)
    (he : 1 ≤ e) (hs : pbandsStart o = .ok ((p - 1 : Nat) : Int)) (hb : e < 2147483647)
    (hpp : p * (p + 1) * (2 * p + 1) ≤ 2147483647) :
    Computes poscBatch o (p - 1) (fun x => poscSeq ((1 + (e : Int) : Int) : R) (poscRaw p (regB p (regK p) (closes x)) x)) := by
  intro x N
  simp only [poscBatch, hcp, hce, bind_ok, hs, length_pre]
  rw [if_neg (by omega), if_neg (by omega)]
  by_cases hN : (N : Int) ≤ ((p - 1 : Nat) : Int)
  · rw [if_pos hN, show N - (p - 1) = 0 by omega]; rfl
  rw [if_neg hN, regConst_ok p hpp, bind_ok]
  refine loopBatch_run x N (p - 1) _ rfl ((poscLoops_ordered _ _ _ _).from _)
    (fun n => (regAt p (closes x) n, if n < p then none else
      some (poscSeq ((1 + (e : Int) : Int) : R) (poscRaw p (regB p (regK p) (closes x)) x) (n - p))))
    (by rw [regAt_zero, if_pos (by omega)]) _ ?_
  intro n hn
  simp only [barStep, poscLoops, List.find?, Int.zero_add]
  by_cases h : n < p - 1
  · rw [decide_eq_true (by omega), if_pos h, if_pos (show n < p by omega), if_pos (show n + 1 < p by omega)]
    simp only [pure_eq]
    exact congrArg (fun s => Except.ok ((s, none), [])) (regAt_warm p (closes x) n h)
  · rw [decide_eq_false (by omega), if_neg h]
    have e1 := regAt_xy p hp (closes x) n h
    have e2 := regAt_y p hp (closes x) n h
    have e3 := regAt_step p hp (closes x) n h
    simp only [closes] at e1 e2 e3
    by_cases h' : n < p
    · rw [decide_eq_true (by omega), if_pos h', if_neg (show ¬ n + 1 < p by omega)]
      simp only []
      rw [projMax_batch p hp _ x N n hn h, bind_ok, projMin_batch p hp _ x N n hn h, bind_ok,
        rd_at (n - (p - 1)) (by omega) (by omega), bind_ok, e1, e2, e3]
      obtain rfl : p = n + 1 := by omega
      simp only [Nat.add_sub_cancel, Nat.sub_self, poscSeq, poscRaw, Nat.zero_add, regB, pure_eq]
    · rw [decide_eq_false (by omega), if_neg h', if_neg (show ¬ n + 1 < p by omega)]
      simp only [getV, bind_ok]
      rw [projMax_batch p hp _ x N n hn h, bind_ok, projMin_batch p hp _ x N n hn h, bind_ok, i32_ok _ (by omega) (by omega), bind_ok,
        rd_at (n - (p - 1)) (by omega) (by omega), bind_ok, e1, e2, e3]
      simp only [show n - (p - 1) = n - p + 1 by omega, show n + 1 - p = n - p + 1 by omega, poscSeq, poscRaw,
        show n - p + 1 + (p - 1) = n by omega, regB, pure_eq]

theorem poscRef_run (o : Nat → R) (p e : Nat) (hcp : toInt (o 0) = .ok (p : Int)) (hce : toInt (o 1) = .ok (e : Int)) (hp : 1 ≤ p)
    (he : 1 ≤ e) (hb : bound (o 0) = .ok (p : Int)) (hs : pbandsStart o = .ok ((p - 1 : Nat) : Int)) (hpp : p * p ≤ 2147483647) :
    Computes poscRef o (p - 1) (fun x => emaRec (emaPer e) (fun j =>
      ((x (j + (p - 1))).close - (bandAt p (lrB (closes x) p j) x j).lower) /
        ((bandAt p (lrB (closes x) p j) x j).upper - (bandAt p (lrB (closes x) p j) x j).lower) * c! 100)) := by
  intro x N
  unfold poscRef
  rw [linregStart, hcp, bind_ok, startM1_ok hcp hp, bind_ok, map_pre,
    linregslope_run o p hcp hp hpp (fun i => (x i).close) N, bind_ok, length_pre]
  by_cases hN : N ≤ p - 1
  · rw [forUp_empty (by omega), bind_ok, show N - (p - 1) = 0 by omega]
    have := emaInPlace_pre (o := fun _ => o 1) hce he (fun _ => (c! 0 : R)) 0
    rw [pre_zero] at this
    rw [this]; rfl
  refine forUp_bind (p - 1) N (fun i => pre (fun j =>
      ((x (j + (p - 1))).close - (bandAt p (lrB (closes x) p j) x j).lower) /
        ((bandAt p (lrB (closes x) p j) x j).upper - (bandAt p (lrB (closes x) p j) x j).lower) * c! 100) (i - (p - 1))) (by omega) rfl
    (by simp) (by omega) ?_ ?_
  · intro i h1 h2
    rw [projRow_ok o p hp hb x N i h2 (by omega) _ _ (by omega), bind_ok, hs, bind_ok, show i + 1 - (p - 1) = i - (p - 1) + 1 by omega]
    exact wr_pre _ _ _ _ (by omega) (by rw [show i - (p - 1) + (p - 1) = i by omega]; rfl)
  · rw [emaInPlace_pre (o := fun _ => o 1) hce he, bind_ok]
    rfl

/-! ### Whole-number options -/

theorem regConstR_cast [IntExact R] {v : R} (p : Nat) (hv : v = ((p : Int) : R)) (h : p * (p + 1) * (2 * p + 1) ≤ 2147483647) :
    regConstR v = regK p := by
  have e1 : (p : Int) * ((p : Int) + 1) = ((p * (p + 1) : Nat) : Int) := by push_cast; ring
  have e2 : (p : Int) * ((p : Int) + 1) * (2 * (p : Int) + 1) = ((p * (p + 1) * (2 * p + 1) : Nat) : Int) := by push_cast; ring
  have h1 : p * (p + 1) ≤ p * (p + 1) * (2 * p + 1) := Nat.le_mul_of_pos_right _ (by omega)
  have h2 : p ≤ p * (p + 1) := Nat.le_mul_of_pos_right _ (by omega)
  unfold regConstR regK
  rw [hv, IntExact.add _ _ (by unfold Small; omega) (by unfold Small; omega) (by unfold Small; omega),
    IntExact.mul _ _ (by unfold Small; omega) (by unfold Small; omega) (by unfold Small; omega) (Or.inl (by omega)),
    IntExact.mul _ _ (by unfold Small; omega) (by unfold Small; omega) (by unfold Small; omega) (Or.inl (by omega)),
    IntExact.add _ _ (by unfold Small; omega) (by unfold Small; omega) (by unfold Small; omega),
    IntExact.mul _ _ (by unfold Small; omega) (by unfold Small; omega) (by unfold Small; omega) (Or.inl (by omega))]

theorem regP_lt {p : Nat} (h : p * (p + 1) * (2 * p + 1) ≤ 2147483647) : p < 2000 := by
  by_contra hp
  have h1 : 2000 * (2000 + 1) ≤ p * (p + 1) := Nat.mul_le_mul (by omega) (by omega)
  have h2 : 2000 * (2000 + 1) * (2 * 2000 + 1) ≤ p * (p + 1) * (2 * p + 1) := Nat.mul_le_mul h1 (by omega)
  omega

theorem toInt_add_one [IntExact R] {v : R} (p : Nat) (hv : v = ((p : Int) : R)) (h : p < 2147483647) :
    toInt (v + c! 1) = .ok ((p + 1 : Nat) : Int) := by
  rw [hv, IntExact.add _ _ (by unfold Small; omega) (by unfold Small; omega) (by unfold Small; omega)]
  exact toInt_cast _ (by omega)

/-- The three rings after `n` bars. -/
def rings3 (x : Nat → HLC R) (m n : Nat) : Rings3 R :=
  ⟨Ring.after (fun i => (x i).high) m n, Ring.after (fun i => (x i).low) m n, Ring.after (fun i => (x i).close) m n⟩
/-- The three rings during bar `n`. -/
def rings3Now (x : Nat → HLC R) (m n : Nat) : Rings3 R :=
  ⟨Ring.now (fun i => (x i).high) m n, Ring.now (fun i => (x i).low) m n, Ring.now (fun i => (x i).close) m n⟩

theorem rings3_make (x : Nat → HLC R) (m : Nat) (hm : 0 < m) : Rings3.make (m : Int) = .ok (rings3 x m 0) := by
  unfold Rings3.make
  rw [Ring.make_after (fun _ => c! 0) m hm]
  rfl
theorem rings3_zero (x y : Nat → HLC R) (m : Nat) : rings3 x m 0 = rings3 y m 0 := rfl
theorem rings3_set (x : Nat → HLC R) (m : Nat) (hm : 0 < m) (n : Nat) : (rings3 x m n).set (x n) = .ok (rings3Now x m n) := by
  unfold Rings3.set rings3
  rw [Ring.after_set _ _ hm n _ rfl, bind_ok, Ring.after_set _ _ hm n _ rfl, bind_ok, Ring.after_set _ _ hm n _ rfl, bind_ok]
  rfl
theorem rings3_step (x : Nat → HLC R) (m n : Nat) : (rings3Now x m n).step = rings3 x m (n + 1) := rfl

theorem projMax_stream (p : Nat) (hp : 1 ≤ p) (b : R) (x : Nat → HLC R) (n : Nat) (h : ¬ n < p - 1) :
    projMax (x n).high (p : Int) b (rings3Now x (p + 1) n).high.get = .ok (bandAt p b x (n - (p - 1))).upper := by
  have := projMax_ok (fun i => (x (n - (p - 1) + (p - 1) - i)).high) b p hp (rings3Now x (p + 1) n).high.get (fun j h1 h2 => by
    rw [rings3Now, Ring.now_get _ _ _ _ j rfl (by omega) (by omega), show n - (p - 1) + (p - 1) - j = n - j by omega])
  simp only [show n - (p - 1) + (p - 1) - 0 = n by omega] at this
  exact this
theorem projMin_stream (p : Nat) (hp : 1 ≤ p) (b : R) (x : Nat → HLC R) (n : Nat) (h : ¬ n < p - 1) :
    projMin (x n).low (p : Int) b (rings3Now x (p + 1) n).low.get = .ok (bandAt p b x (n - (p - 1))).lower := by
  have := projMin_ok (fun i => (x (n - (p - 1) + (p - 1) - i)).low) b p hp (rings3Now x (p + 1) n).low.get (fun j h1 h2 => by
    rw [rings3Now, Ring.now_get _ _ _ _ j rfl (by omega) (by omega), show n - (p - 1) + (p - 1) - j = n - j by omega])
  simp only [show n - (p - 1) + (p - 1) - 0 = n by omega] at this
  exact this

/-- The weight the streams give to a price during warm-up. -/
theorem warm_weight [IntExact R] (p : Nat) (hp : 1 ≤ p) (hb : p < 2000) (n : Nat) (h : n < p - 1) :
    (((-((p - 1 : Nat) : Int) + (n : Int) : Int) : R) - (-((p : Int) : R) + c! 1) + c! 1) = (((n : Int) + 1 : Int) : R) := by
  rw [IntExact.neg _ (by unfold Small; omega) (by omega),
    IntExact.add _ _ (by unfold Small; omega) (by unfold Small; omega) (by unfold Small; omega),
    IntExact.sub _ _ (by unfold Small; omega) (by unfold Small; omega) (by unfold Small; omega),
    IntExact.add _ _ (by unfold Small; omega) (by unfold Small; omega) (by unfold Small; omega)]
  congr 1
  omega

theorem pbands_stream_run [IntExact R] (o : Nat → R) (p : Nat) (ho : o 0 = ((p : Int) : R)) (hp : 1 ≤ p)
    (hb : bound (o 0) = .ok (p : Int)) (hpp : p * (p + 1) * (2 * p + 1) ≤ 2147483647) :
    (pbands (R := R)).StreamComputes o (p - 1) (fun x j => bandAt p (regB p (regK p) (closes x) j) x j) := by
  have hlt := regP_lt hpp
  have hcp : toInt (o 0) = .ok (p : Int) := by rw [ho]; exact toInt_cast _ (by omega)
  have hs : pbandsStart o = .ok ((p - 1 : Nat) : Int) := toInt_sub_one hcp hp
  have hs' : toInt (o 0 - c! 1) = .ok ((p - 1 : Nat) : Int) := toInt_sub_one hcp hp
  have x0 : Nat → HLC R := fun _ => ⟨c! 0, c! 0, c! 0⟩
  refine streamComputes_traj (I := pbands) (k := ⟨o 0, regK p⟩)
    (s0 := (⟨c! 0, c! 0⟩, rings3 x0 (p + 1) 0)) ?_ (pbandsPhases_ordered _)
    (fun x n => (regAt p (closes x) n, rings3 x (p + 1) n)) (fun x => by rw [regAt_zero]; rfl) ?_
  · simp only [pbands, pbandsNew, bind_ok, pure_eq]
    rw [if_neg (not_lt_one hcp hp), hs, bind_ok, toInt_add_one p ho (by omega), bind_ok, rings3_make x0 _ (by omega), bind_ok,
      regConstR_cast p ho hpp]
  · intro x n
    simp only [barStep, pbands, pbandsPhases, List.find?]
    by_cases h : n < p - 1
    · rw [decide_eq_true (by omega), if_pos h]
      simp only []
      rw [rings3_set _ _ (by omega), bind_ok, rings3_step, ho, warm_weight p hp hlt n h]
      exact congrArg (fun s => Except.ok ((s, _), [])) (regAt_warm p (closes x) n h)
    · rw [decide_eq_false (by omega), if_neg h]
      have e1 := regAt_xy p hp (closes x) n h
      have e2 := regAt_y p hp (closes x) n h
      have e3 := regAt_step p hp (closes x) n h
      simp only [closes] at e1 e2 e3
      simp only []
      rw [rings3_set _ _ (by omega), bind_ok, hb, bind_ok, projMax_stream p hp _ x n h, bind_ok, projMin_stream p hp _ x n h, bind_ok,
        hs', bind_ok, rings3Now, Ring.now_get _ _ _ _ (p - 1) (by omega) (by omega) (by omega), bind_ok, ← rings3Now, rings3_step, ho,
        e1, e2, e3]
      rfl

theorem posc_stream_run [IntExact R] (o : Nat → R) (p e : Nat) (ho : o 0 = ((p : Int) : R)) (ho1 : o 1 = ((e : Int) : R)) (hp : 1 ≤ p)
    (he : 1 ≤ e) (hb1 : e < 2147483647) (hb : bound (o 0) = .ok (p : Int)) (hpp : p * (p + 1) * (2 * p + 1) ≤ 2147483647) :
    (posc (R := R)).StreamComputes o (p - 1)
      (fun x => poscSeq ((1 + (e : Int) : Int) : R) (poscRaw p (regB p (regK p) (closes x)) x)) := by
  have hlt := regP_lt hpp
  have hcp : toInt (o 0) = .ok (p : Int) := by rw [ho]; exact toInt_cast _ (by omega)
  have hce : toInt (o 1) = .ok (e : Int) := by rw [ho1]; exact toInt_cast _ (by omega)
  have hs : pbandsStart o = .ok ((p - 1 : Nat) : Int) := toInt_sub_one hcp hp
  have hs' : toInt (o 0 - c! 1) = .ok ((p - 1 : Nat) : Int) := toInt_sub_one hcp hp
  have x0 : Nat → HLC R := fun _ => ⟨c! 0, c! 0, c! 0⟩
  have hq : (c! 1 : R) + o 1 = ((1 + (e : Int) : Int) : R) := by
    rw [ho1]; exact IntExact.add _ _ (by unfold Small; omega) (by unfold Small; omega) (by unfold Small; omega)
  refine streamComputes_traj (I := posc) (k := ⟨o 0, o 1, regK p⟩)
    (s0 := (⟨c! 0, c! 0⟩, rings3 x0 (p + 1) 0, none)) ?_ (poscPhases_ordered _)
    (fun x n => (regAt p (closes x) n, rings3 x (p + 1) n, if n < p then none else
      some (poscSeq ((1 + (e : Int) : Int) : R) (poscRaw p (regB p (regK p) (closes x)) x) (n - p))))
    (fun x => by rw [regAt_zero, if_pos (by omega)]; rfl) ?_
  · simp only [posc, poscNew, bind_ok, pure_eq]
    rw [if_neg (not_lt_one hcp hp), if_neg (not_lt_one hce he), hs, bind_ok, toInt_add_one p ho (by omega), bind_ok,
      rings3_make x0 _ (by omega), bind_ok, regConstR_cast p ho hpp]
  · intro x n
    simp only [barStep, posc, poscPhases, List.find?]
    by_cases h : n < p - 1
    · rw [decide_eq_true (by omega), if_pos h, if_pos (show n < p by omega), if_pos (show n + 1 < p by omega)]
      simp only []
      rw [rings3_set _ _ (by omega), bind_ok, rings3_step, ho, warm_weight p hp hlt n h]
      exact congrArg (fun s => Except.ok ((s, _, _), [])) (regAt_warm p (closes x) n h)
    · rw [decide_eq_false (by omega), if_neg h]
      have e1 := regAt_xy p hp (closes x) n h
      have e2 := regAt_y p hp (closes x) n h
      have e3 := regAt_step p hp (closes x) n h
      simp only [closes] at e1 e2 e3
      have hch : (rings3Now x (p + 1) n).high.cur = .ok (x n).high := Ring.now_cur _ _ (by omega) _
      have hcl : (rings3Now x (p + 1) n).low.cur = .ok (x n).low := Ring.now_cur _ _ (by omega) _
      have hcc : (rings3Now x (p + 1) n).close.get ((p - 1 : Nat) : Int) = .ok (x (n - (p - 1))).close :=
        Ring.now_get _ _ _ _ (p - 1) rfl (by omega) (by omega)
      by_cases h' : n < p
      · rw [decide_eq_true (by omega), if_pos h', if_neg (show ¬ n + 1 < p by omega)]
        simp only []
        rw [rings3_set _ _ (by omega), bind_ok, hb, bind_ok, hch, bind_ok, projMax_stream p hp _ x n h, bind_ok, hcl, bind_ok,
          projMin_stream p hp _ x n h, bind_ok, hs', bind_ok, hcc, bind_ok, rings3_step, ho, e1, e2, e3]
        obtain rfl : p = n + 1 := by omega
        simp only [Nat.add_sub_cancel, Nat.sub_self, poscSeq, poscRaw, Nat.zero_add, regB, pure_eq]
      · rw [decide_eq_false (by omega), if_neg h', if_neg (show ¬ n + 1 < p by omega)]
        simp only [getV, bind_ok]
        rw [rings3_set _ _ (by omega), bind_ok, hb, bind_ok, hch, bind_ok, projMax_stream p hp _ x n h, bind_ok, hcl, bind_ok,
          projMin_stream p hp _ x n h, bind_ok, hs', bind_ok, hcc, bind_ok, rings3_step, hq, ho, e1, e2, e3]
        simp only [show n - (p - 1) = n - p + 1 by omega, show n + 1 - p = n - p + 1 by omega, poscSeq, poscRaw,
          show n - p + 1 + (p - 1) = n by omega, regB, pure_eq]

end Any
end Verif
