/- ahma, ehma, idwma, lma, shmma, emsd, edcf: the runs, in any arithmetic (helper lemmas). -/
import Verif.Model.Average
import Verif.Proof.Loop
import Verif.Proof.Chan
import Verif.Proof.Smooth

set_option linter.unusedSectionVars false
set_option linter.unusedSimpArgs false
set_option linter.unusedVariables false

namespace Verif
section Any
variable {R : Type} [Num R]

theorem filled_exact (out : List R) (n : Int) (h : n = (out.length : Int)) : filled n out = .ok out := by
  unfold filled
  rw [if_pos (by omega), show n.toNat - out.length = 0 by omega]
  simp

/-! ### ahma -/

/-- Output `n` of ahma with divisor `d`. -/
def ahmaRec (p : Nat) (d : R) (x : Nat → R) (n : Nat) : R :=
  if h : n < p ∨ p = 0 then x n
  else ahmaRec p d x (n - 1) + (x n - (ahmaRec p d x (n - 1) + ahmaRec p d x (n - p)) / c! 2) / d
termination_by n

theorem ahmaRec_lt {p : Nat} {d : R} {x : Nat → R} {n : Nat} (h : n < p) : ahmaRec p d x n = x n := by
  rw [ahmaRec, dif_pos (Or.inl h)]

theorem ahmaRec_ge {p : Nat} {d : R} {x : Nat → R} {n : Nat} (hp : 1 ≤ p) (h : p ≤ n) : ahmaRec p d x n =
    ahmaRec p d x (n - 1) + (x n - (ahmaRec p d x (n - 1) + ahmaRec p d x (n - p)) / c! 2) / d := by
  rw [ahmaRec, dif_neg (by omega)]

/-- The two loops of ahma. -/
theorem ahma_loops (p : Nat) (hp : 1 ≤ p) (d : R) (x : Nat → R) (N : Nat) (cap : Int) (hcap : cap = (N : Int)) (per : Int → M Int)
    (hper : ∀ i, per i = .ok (p : Int)) :
    (do
      let i1 := upto 0 (p : Int) (N : Int)
      let out ← forUp 0 i1 ([] : List R) fun i out => do
        wr cap out (← rd (pre x N) i)
      let out ← forUp i1 (N : Int) out fun i out => do
        let a ← rd out (i - 1)
        let b ← rd out (i - (← per i))
        wr cap out (a + ((← rd (pre x N) i) - (a + b) / c! 2) / d)
      return ((.okay, out) : Ret × List R) : M (Ret × List R)) = .ok (.okay, pre (ahmaRec p d x) N) := by
  refine forUp_bind 0 (min p N) (fun i => pre (ahmaRec p d x) i) rfl (by unfold upto; omega) rfl (by omega) ?_ ?_
  · intro i _ h2
    rw [rd_at i rfl (by omega), bind_ok]
    exact wr_pre _ _ i _ (by omega) (ahmaRec_lt (by omega)).symm
  refine forUp_bind (min p N) N (fun i => pre (ahmaRec p d x) i) (by unfold upto; omega) rfl rfl (by omega) ?_ rfl
  intro i h1 h2
  rw [rd_at (i - 1) (by omega) (by omega), bind_ok, hper, bind_ok, rd_at (i - p) (by omega) (by omega), bind_ok,
    rd_at i rfl h2, bind_ok]
  exact wr_pre _ _ i _ (by omega) (ahmaRec_ge hp (by omega)).symm

theorem ahma_run (o : Nat → R) (p : Nat) (hc : toInt (o 0) = .ok (p : Int)) (hp : 1 ≤ p) :
    Computes ahmaBatch o 0 (ahmaRec p ((p : Int) : R)) := by
  intro x N
  unfold ahmaBatch
  simp only [hc, bind_ok, ahmaStart, length_pre]
  rw [if_neg (by omega)]
  exact ahma_loops p hp _ x N _ (by simp) (fun _ => .ok (p : Int)) (fun _ => rfl)

theorem ahmaRef_run (o : Nat → R) (p : Nat) (hlt : ¬ o 0 < c! 1) (hc : toInt (o 0) = .ok (p : Int))
    (hb : bound (o 0) = .ok (p : Int)) (hp : 1 ≤ p) : Computes ahmaRef o 0 (ahmaRec p (o 0)) := by
  intro x N
  unfold ahmaRef
  simp only [bind_ok, ahmaStart, length_pre]
  rw [if_neg hlt, hb, bind_ok]
  exact ahma_loops p hp _ x N _ (by simp) (fun _ => toInt (o 0)) (fun _ => hc)

theorem ahmaPhases_ordered (n : Int) : Phases.Ordered (ahmaPhases (R := R) n) := by
  phases_ordered ahmaPhases

theorem ahma_stream_run (o : Nat → R) (p : Nat) (hc : toInt (o 0) = .ok (p : Int)) (hp : 1 ≤ p) (hb : p < 2147483647) :
    (ahma (R := R)).StreamComputes o 0 (ahmaRec p ((p : Int) : R)) := by
  refine streamComputes_traj (I := ahma) (k := (p : Int)) (s0 := Ring.after (fun _ => c! 0) (p + 1) 0) ?_
    (ahmaPhases_ordered _) (fun x n => Ring.after (ahmaRec p ((p : Int) : R) x) (p + 1) n) (fun x => rfl) ?_
  · simp only [ahma, ahmaNew, hc, ahmaStart, bind_ok, pure_eq]
    rw [if_neg (by omega), i32_ok _ (by omega) (by omega), bind_ok, show (p : Int) + 1 = ((p + 1 : Nat) : Int) by omega,
      Ring.make_after (fun _ => c! 0) _ (by omega), bind_ok]
    rfl
  · intro x n
    simp only [barStep, ahma, ahmaPhases, List.find?]
    rw [if_neg (by omega), Nat.sub_zero]
    by_cases h : n < p
    · rw [decide_eq_true (by omega)]
      simp only []
      rw [Ring.after_set _ _ (by omega) n _ (ahmaRec_lt h).symm, bind_ok, Ring.now_cur _ _ (by omega), bind_ok, Ring.now_step]
      rfl
    · rw [decide_eq_false (by omega)]
      simp only []
      rw [Ring.after_get _ _ _ 1 1 rfl (by omega) (by omega), bind_ok,
        Ring.after_get _ _ _ (p : Int) p rfl (by omega) (by omega), bind_ok, if_pos (by omega), if_pos (by omega),
        Ring.after_set _ _ (by omega) n _ (ahmaRec_ge hp (by omega)).symm, bind_ok, Ring.now_cur _ _ (by omega), bind_ok,
        Ring.now_step]
      rfl

/-! ### ehma -/

/-- The averages of ehma after bar `n`, one step of an average being `f`, `g`, `h`. -/
def ehmaRec (f g h : R → R → R) (x : Nat → R) : Nat → Ehma R
  | 0 => ehmaFirst (x 0)
  | n + 1 =>
    let e := ehmaRec f g h x n
    ⟨f (x (n + 1)) e.n2, g (x (n + 1)) e.n, h (c! 2 * f (x (n + 1)) e.n2 - g (x (n + 1)) e.n) e.n05⟩

theorem ehmaLoops_ordered (p : Int) : Phases.Ordered (ehmaLoops (R := R) p) := by
  phases_ordered ehmaLoops
theorem ehmaPhases_ordered (k : EhmaK R) : Phases.Ordered (ehmaPhases k) := by
  phases_ordered ehmaPhases

/-- ehma: the batch step. -/
def ehmaStep (d : R) (x e : R) : R := (x - e) * c! 2 / d + e
/-- ehma: the stream step. -/
def ehmaStepS (r : R) (x e : R) : R := (x - e) * c! 2 * r + e

theorem ehma_run (o : Nat → R) (p : Nat) (hc : toInt (o 0) = .ok (p : Int)) (hp : 1 ≤ p) :
    Computes ehmaBatch o 0 (fun x n => (ehmaRec (ehmaStep (((p : Int) : R) / c! 2 + c! 1)) (ehmaStep (((p : Int) : R) + c! 1))
      (ehmaStep (CMath.sqrt ((p : Int) : R) + c! 1)) x n).n05) := by
  refine computes_of_loop (phs := ehmaLoops p) (p0 := 0) (s0 := none) (start := 0) ?_ ((ehmaLoops_ordered _).from _)
    (fun x n => if n = 0 then none else some (ehmaRec (ehmaStep (((p : Int) : R) / c! 2 + c! 1))
      (ehmaStep (((p : Int) : R) + c! 1)) (ehmaStep (CMath.sqrt ((p : Int) : R) + c! 1)) x (n - 1))) (fun x => rfl) ?_
  · intro xs
    simp only [ehmaBatch, hc, bind_ok, ehmaStart]
    rw [if_neg (by omega)]
    rfl
  · intro x n
    simp only [barStep, ehmaLoops, List.find?]
    rcases n with _ | n
    · rfl
    · rw [decide_eq_false (by omega)]
      simp only [if_neg (Nat.succ_ne_zero _), Nat.add_sub_cancel, getV, bind_ok]
      rfl

theorem ehma_stream_run (o : Nat → R) (p : Nat) (hc : toInt (o 0) = .ok (p : Int)) (hp : 1 ≤ p) (hb : p < 2147483647) :
    (ehma (R := R)).StreamComputes o 0 (fun x n => (ehmaRec (ehmaStepS (c! 1 / (((p : Int) : R) / c! 2 + c! 1)))
      (ehmaStepS (c! 1 / (((p : Int) + 1 : Int) : R)))
      (ehmaStepS (c! 1 / (CMath.sqrt ((p : Int) : R) + c! 1))) x n).n05) := by
  refine streamComputes_traj (I := ehma) (s0 := none) (k := ⟨c! 1 / (((p : Int) : R) / c! 2 + c! 1), c! 1 / (((p : Int) + 1 : Int) : R),
    c! 1 / (CMath.sqrt ((p : Int) : R) + c! 1)⟩) ?_ (ehmaPhases_ordered _)
    (fun x n => if n = 0 then none else some (ehmaRec (ehmaStepS (c! 1 / (((p : Int) : R) / c! 2 + c! 1)))
      (ehmaStepS (c! 1 / (((p : Int) + 1 : Int) : R))) (ehmaStepS (c! 1 / (CMath.sqrt ((p : Int) : R) + c! 1))) x (n - 1)))
    (fun x => rfl) ?_
  · simp only [ehma, ehmaNew, hc, ehmaStart, bind_ok, pure_eq]
    rw [if_neg (by omega), i32_ok _ (by omega) (by omega), bind_ok]
    rfl
  · intro x n
    simp only [barStep, ehma, ehmaPhases, List.find?]
    rcases n with _ | n
    · rfl
    · rw [decide_eq_false (by omega)]
      simp only [if_neg (Nat.succ_ne_zero _), Nat.add_sub_cancel, getV, bind_ok]
      rfl

/-! ### idwma -/

/-- Weight of the value `k` bars back. -/
def idW (e : R) (k : Nat) : R := c! 1 / CMath.pow (((k : Int) + 1 : Int) : R) e

/-- idwma, output `j`. -/
def idVal (p : Nat) (e : R) (x : Nat → R) (j : Nat) : R :=
  sumTo (fun k => x (j + (p - 1) - k) * idW e k) p / sumTo (idW e) p

theorem idwmaCoef_ok (p : Nat) (e : R) : idwmaCoef (p : Int) e = .ok (pre (idW e) p, sumTo (idW e) p) := by
  refine forUp_nat (a := 0) (b := p) (fun i => (pre (idW e) i, sumTo (idW e) i)) (by omega) ?_
  intro i _ h
  simp only []
  rw [wr_pre (p : Int) (idW e) i (c! 1 / CMath.pow (((i : Int) + 1 : Int) : R) e) (by omega) rfl, bind_ok]
  rfl

theorem idwma_run (o : Nat → R) (p : Nat) (hc : toInt (o 0) = .ok (p : Int)) (hp : 1 ≤ p) (hg : ¬ idwmaBad o)
    (hs : idwmaStart o = .ok ((p - 1 : Nat) : Int)) : Computes idwmaBatch o (p - 1) (idVal p (o 1)) := by
  intro x N
  unfold idwmaBatch
  simp only [hc, bind_ok, hs, length_pre, pure_eq, idwmaCoef_ok]
  rw [if_neg (by omega), if_neg hg]
  by_cases hN : N ≤ p - 1
  · rw [forUp_empty (by omega), bind_ok, show N - (p - 1) = 0 by omega]; rfl
  refine forUp_bind (p - 1) N (fun i => pre (idVal p (o 1) x) (i - (p - 1))) (by omega) rfl (by simp) (by omega) ?_ rfl
  intro i h1 h2
  refine forUp_bind 0 p (fun q => sumTo (fun k => x (i - k) * idW (o 1) k) q) rfl rfl rfl (by omega) ?_ ?_
  · intro q _ h4
    rw [rd_at (i - q) (by omega) (by omega), bind_ok, rd_at q rfl h4, bind_ok]
    rfl
  · rw [wr_pre _ _ _ _ (by omega) ?_, show i + 1 - (p - 1) = i - (p - 1) + 1 by omega]
    unfold idVal
    rw [show i - (p - 1) + (p - 1) = i by omega]

/-- idwma_ref, output `j`. -/
def idRefVal (p : Nat) (e : R) (x : Nat → R) (j : Nat) : R :=
  sumTo (fun k => x (j + (p - 1) - k) * c! 1 / CMath.pow (((k : Int) + 1 : Int) : R) e) p / sumTo (idW e) p

theorem idwmaRef_run (o : Nat → R) (p : Nat) (hlt : ¬ o 0 < c! 1) (hb : bound (o 0) = .ok (p : Int)) (hp : 1 ≤ p)
    (hg : ¬ idwmaBad o) (hs : toInt (o 0 - c! 1) = .ok ((p - 1 : Nat) : Int)) :
    Computes idwmaRef o (p - 1) (idRefVal p (o 1)) := by
  intro x N
  unfold idwmaRef
  simp only [hb, bind_ok, idwmaStart, hs, length_pre, pure_eq]
  rw [if_neg hlt, if_neg hg]
  refine forUp_bind 0 p (fun q => sumTo (idW (o 1)) q) rfl rfl rfl (by omega) (fun i _ _ => rfl) ?_
  by_cases hN : N ≤ p - 1
  · rw [forUp_empty (by omega), bind_ok, show N - (p - 1) = 0 by omega]; rfl
  refine forUp_bind (p - 1) N (fun i => pre (idRefVal p (o 1) x) (i - (p - 1))) (by omega) rfl (by simp) (by omega) ?_ rfl
  intro i h1 h2
  refine forUp_bind 0 p (fun q => sumTo (fun k => x (i - k) * c! 1 / CMath.pow (((k : Int) + 1 : Int) : R) (o 1)) q) rfl rfl
    rfl (by omega) ?_ ?_
  · intro q _ h4
    rw [rd_at (i - q) (by omega) (by omega), bind_ok]
    rfl
  · rw [wr_pre _ _ _ _ (by omega) ?_, show i + 1 - (p - 1) = i - (p - 1) + 1 by omega]
    unfold idRefVal
    rw [show i - (p - 1) + (p - 1) = i by omega]

theorem idwmaPhases_ordered (k : IdwmaK R) : Phases.Ordered (idwmaPhases k) := by
  phases_ordered idwmaPhases

theorem idwma_stream_run (o : Nat → R) (p : Nat) (hc : toInt (o 0) = .ok (p : Int)) (hp : 1 ≤ p) (hg : ¬ idwmaBad o)
    (hs : idwmaStart o = .ok ((p - 1 : Nat) : Int)) : (idwma (R := R)).StreamComputes o (p - 1) (idVal p (o 1)) := by
  refine streamComputes_traj (I := idwma) (k := ⟨p, sumTo (idW (o 1)) p, pre (idW (o 1)) p⟩)
    (s0 := Ring.after (fun _ => c! 0) p 0) ?_ (idwmaPhases_ordered _) (fun x n => Ring.after x p n) (fun x => rfl) ?_
  · simp only [idwma, idwmaNew, hc, hs, bind_ok, pure_eq]
    rw [if_neg (by omega), if_neg hg, Ring.make_after (fun _ => c! 0) _ hp, bind_ok, idwmaCoef_ok, bind_ok]
  · intro x n
    simp only [barStep, idwma, idwmaPhases, List.find?]
    by_cases h1 : n < p - 1
    · rw [decide_eq_true (by omega), if_pos h1]
      simp only [Ring.after_set x _ hp n (x n) rfl, bind_ok, Ring.now_step, pure_eq]
    · rw [decide_eq_false (by omega), if_neg h1]
      simp only [Ring.after_set x _ hp n (x n) rfl, bind_ok, Ring.now_step, pure_eq]
      refine forUp_bind 0 p (fun q => sumTo (fun k => x (n - k) * idW (o 1) k) q) rfl rfl rfl (by omega) ?_ ?_
      · intro q _ h4
        rw [Ring.now_get x p n (q : Int) q rfl (by omega) (by omega), bind_ok, rd_at q rfl h4, bind_ok]
        rfl
      · unfold idVal
        rw [show n - (p - 1) + (p - 1) = n by omega]

/-! ### lma -/

/-- lma, output `j`: `f` divides by the weight total, `g` by the period. -/
def lmaVal (p : Nat) (f g : R → R) (x : Nat → R) (j : Nat) : R :=
  f (c! 2 * ((dwSt p x (j + (p - 1))).1 + ((p : Int) : R) * x (j + (p - 1)))) -
    g ((dwSt p x (j + (p - 1))).2 + x (j + (p - 1)))

/-- The weight total as lma accumulates it. -/
def lmaDen (p : Nat) : R := sumTo (fun i => (((i : Int) + 1 : Int) : R)) p

theorem lma_run (o : Nat → R) (p : Nat) (hc : toInt (o 0) = .ok (p : Int)) (hp : 1 ≤ p)
    (hs : lmaStart o = .ok ((p - 1 : Nat) : Int)) :
    Computes lmaBatch o (p - 1) (lmaVal p (· / lmaDen p) (· / ((p : Int) : R))) := by
  intro x N
  unfold lmaBatch
  simp only [hc, bind_ok, hs, length_pre, pure_eq]
  rw [if_neg (by omega)]
  refine forUp_bind 0 p (fun q => sumTo (fun i => (((i : Int) + 1 : Int) : R)) q) rfl rfl rfl (by omega) (fun i _ _ => rfl) ?_
  refine forUp_bind 0 (min (p - 1) N) (fun i => dwSt p x i) rfl (by unfold upto; omega) rfl (by omega) ?_ ?_
  · intro i _ h2
    rw [rd_at i rfl (by omega), bind_ok]
    simp only [dwSt, if_pos (show i < p - 1 by omega)]
  refine forUp_bind (min (p - 1) N) N (fun i => (dwSt p x i, pre (lmaVal p (· / lmaDen p) (· / ((p : Int) : R)) x) (i - (p - 1))))
    (by unfold upto; omega) rfl ?_ (by omega) ?_ rfl
  · rw [show min (p - 1) N - (p - 1) = 0 by omega, pre_zero]
  · intro i h1 h2
    simp only []
    rw [rd_at i rfl (by omega), bind_ok, wr_pre _ _ (i - (p - 1)) _ (by omega) ?_, bind_ok,
      rd_at (i - (p - 1)) (by omega) (by omega), bind_ok]
    · simp only [dwSt, if_neg (show ¬ i < p - 1 by omega)]
      rw [show i + 1 - (p - 1) = i - (p - 1) + 1 by omega]
    · simp only [lmaVal]
      rw [show i - (p - 1) + (p - 1) = i by omega]
      rfl

theorem lmaPhases_ordered (k : LmaK R) : Phases.Ordered (lmaPhases k) := by
  phases_ordered lmaPhases

theorem lma_stream_run (o : Nat → R) (p : Nat) (hc : toInt (o 0) = .ok (p : Int)) (hp : 1 ≤ p) (hlt : ¬ o 0 < c! 1)
    (hs : lmaStart o = .ok ((p - 1 : Nat) : Int)) :
    (lma (R := R)).StreamComputes o (p - 1) (lmaVal p (· * (c! 1 / ((c! 1 + o 0) / c! 2 * o 0))) (· * (c! 1 / o 0))) := by
  refine streamComputes_traj (I := lma) (k := ⟨p, c! 1 / ((c! 1 + o 0) / c! 2 * o 0), c! 1 / o 0⟩)
    (s0 := ⟨c! 0, c! 0, Ring.after (fun _ => c! 0) p 0⟩) ?_ (lmaPhases_ordered _)
    (fun x n => ⟨(dwSt p x n).1, (dwSt p x n).2, Ring.after x p n⟩) (fun x => rfl) ?_
  · simp only [lma, lmaNew, hc, hs, bind_ok, pure_eq]
    rw [if_neg hlt, Ring.make_after (fun _ => c! 0) _ hp, bind_ok]
  · intro x n
    simp only [barStep, lma, lmaPhases, List.find?]
    by_cases h1 : n < p - 1
    · rw [decide_eq_true (by omega), if_pos h1]
      simp only [Ring.after_set x _ hp n (x n) rfl, bind_ok, Ring.now_step, pure_eq, dwSt, if_pos h1]
      rw [show (-((p - 1 : Nat) : Int) + (n : Int) + ((p : Int) - 1) + 1) = (n : Int) + 1 by omega]
    · rw [decide_eq_false (by omega), if_neg h1]
      simp only [Ring.after_set x _ hp n (x n) rfl, bind_ok, Ring.now_step, pure_eq, dwSt, if_neg h1,
        Ring.now_get x p n ((p : Int) - 1) (p - 1) (by omega) (by omega) (by omega)]
      simp only [lmaVal]
      rw [show n - (p - 1) + (p - 1) = n by omega]

/-! ### shmma -/

/-- The sums (T, S) of shmma before bar `n`. -/
def shSt (p : Nat) (x : Nat → R) : Nat → R × R
  | 0 => (c! 0, c! 0)
  | i + 1 =>
    if i < p - 1 then ((shSt p x i).1 + x i, (shSt p x i).2 + (((-(p : Int) + 2 * (i : Int) : Int) : R) + c! 1) / c! 2 * x i)
    else shmmaSlide p ((shSt p x i).1 + x i) ((shSt p x i).2 + (((p : Int) : R) - c! 1) / c! 2 * x i) (x (i - (p - 1)))

/-- shmma, output `j`. -/
def shVal (p : Nat) (x : Nat → R) (j : Nat) : R :=
  ((shSt p x (j + (p - 1))).1 + x (j + (p - 1))) / ((p : Int) : R) +
    (c! 6 * ((shSt p x (j + (p - 1))).2 + (((p : Int) : R) - c! 1) / c! 2 * x (j + (p - 1)))) /
      ((((p : Int) + 1) * p : Int) : R)

theorem sh_small {p : Nat} (hb : (p + 1) * p ≤ 2147483647) : p ≤ 46340 := by
  by_contra h
  have : 46341 * 46342 ≤ (p + 1) * p := by nlinarith
  omega

theorem shmmaWeight_ok {p : Nat} (hb : (p + 1) * p ≤ 2147483647) (i : Nat) (h : i < p) (j : Int) (hj : j = (i : Int)) :
    (shmmaWeight (p : Int) j : M R) = .ok ((((-(p : Int) + 2 * (i : Int) : Int) : R) + c! 1) / c! 2) := by
  subst hj
  have := sh_small hb
  unfold shmmaWeight
  rw [i32_ok _ (by omega) (by omega), bind_ok, i32_ok _ (by omega) (by omega), bind_ok]
  rfl

theorem shmmaOut_ok {p : Nat} (hb : (p + 1) * p ≤ 2147483647) (T S : R) :
    shmmaOut (p : Int) T S = .ok (T / ((p : Int) : R) + (c! 6 * S) / ((((p : Int) + 1) * p : Int) : R)) := by
  have := sh_small hb
  have hb' : ((p : Int) + 1) * p ≤ 2147483647 := by exact_mod_cast hb
  unfold shmmaOut
  rw [i32_ok _ (by omega) (by omega), bind_ok, i32_ok _ (by nlinarith) hb', bind_ok]
  rfl

theorem shmma_run (o : Nat → R) (p : Nat) (hc : toInt (o 0) = .ok (p : Int)) (hp : 1 ≤ p) (hb : (p + 1) * p ≤ 2147483647)
    (hs : shmmaStart o = .ok ((p - 1 : Nat) : Int)) : Computes shmmaBatch o (p - 1) (shVal p) := by
  intro x N
  unfold shmmaBatch
  simp only [hc, bind_ok, hs, length_pre, pure_eq]
  rw [if_neg (by omega)]
  refine forUp_bind 0 (min (p - 1) N) (fun i => shSt p x i) rfl (by unfold upto; omega) rfl (by omega) ?_ ?_
  · intro i _ h2
    rw [rd_at i rfl (by omega), bind_ok, shmmaWeight_ok hb i (by omega) _ rfl, bind_ok]
    simp only [shSt, if_pos (show i < p - 1 by omega)]
  refine forUp_bind (min (p - 1) N) N (fun i => (shSt p x i, pre (shVal p x) (i - (p - 1)))) (by unfold upto; omega) rfl ?_
    (by omega) ?_ rfl
  · rw [show min (p - 1) N - (p - 1) = 0 by omega, pre_zero]
  · intro i h1 h2
    simp only []
    rw [rd_at i rfl (by omega), bind_ok, shmmaOut_ok hb, bind_ok, wr_pre _ _ (i - (p - 1)) _ (by omega) ?_, bind_ok,
      rd_at (i - (p - 1)) (by omega) (by omega), bind_ok]
    · simp only [shSt, if_neg (show ¬ i < p - 1 by omega)]
      rw [show i + 1 - (p - 1) = i - (p - 1) + 1 by omega]
    · simp only [shVal]
      rw [show i - (p - 1) + (p - 1) = i by omega]

theorem shmmaPhases_ordered (n : Int) : Phases.Ordered (shmmaPhases (R := R) n) := by
  phases_ordered shmmaPhases

theorem shmma_stream_run (o : Nat → R) (p : Nat) (hc : toInt (o 0) = .ok (p : Int)) (hp : 1 ≤ p) (hlt : ¬ o 0 < c! 1)
    (hb : (p + 1) * p ≤ 2147483647) (hs : shmmaStart o = .ok ((p - 1 : Nat) : Int)) :
    (shmma (R := R)).StreamComputes o (p - 1) (shVal p) := by
  refine streamComputes_traj (I := shmma) (k := (p : Int)) (s0 := ⟨c! 0, c! 0, Ring.after (fun _ => c! 0) p 0⟩) ?_
    (shmmaPhases_ordered _) (fun x n => ⟨(shSt p x n).1, (shSt p x n).2, Ring.after x p n⟩) (fun x => rfl) ?_
  · simp only [shmma, shmmaNew, hc, hs, bind_ok, pure_eq]
    rw [if_neg hlt, Ring.make_after (fun _ => c! 0) _ hp, bind_ok]
  · intro x n
    simp only [barStep, shmma, shmmaPhases, List.find?]
    by_cases h1 : n < p - 1
    · rw [decide_eq_true (by omega), if_pos h1]
      simp only [Ring.after_set x _ hp n (x n) rfl, bind_ok, Ring.now_step, pure_eq, shSt, if_pos h1]
      rw [shmmaWeight_ok hb n (by omega) _ (by omega), bind_ok]
    · rw [decide_eq_false (by omega), if_neg h1]
      simp only [Ring.after_set x _ hp n (x n) rfl, bind_ok, Ring.now_step, pure_eq, shSt, if_neg h1, shmmaOut_ok hb,
        Ring.now_get x p n ((p : Int) - 1) (p - 1) (by omega) (by omega) (by omega)]
      simp only [shVal]
      rw [show n - (p - 1) + (p - 1) = n by omega]

/-- shmma_ref, output `j`. -/
def shRefVal (p : Nat) (v : R) (x : Nat → R) (j : Nat) : R :=
  sumTo (fun k => x (j + (p - 1) - k)) p / v +
    (c! 6 * sumTo (fun k => (v - ((((k : Int) * 2 : Int) : R) + c! 1)) / c! 2 * x (j + (p - 1) - k)) p) / ((v + c! 1) * v)

theorem shmmaRef_run (o : Nat → R) (p : Nat) (hlt : ¬ o 0 < c! 1) (hb : bound (o 0) = .ok (p : Int)) (hp : 1 ≤ p)
    (hs : toInt (o 0 - c! 1) = .ok ((p - 1 : Nat) : Int)) : Computes shmmaRef o (p - 1) (shRefVal p (o 0)) := by
  intro x N
  unfold shmmaRef
  simp only [hb, bind_ok, shmmaStart, hs, length_pre, pure_eq]
  rw [if_neg hlt]
  by_cases hN : N ≤ p - 1
  · rw [forUp_empty (by omega), bind_ok, show N - (p - 1) = 0 by omega]; rfl
  refine forUp_bind (p - 1) N (fun i => pre (shRefVal p (o 0) x) (i - (p - 1))) (by omega) rfl (by simp) (by omega) ?_ rfl
  intro i h1 h2
  refine forUp_bind 0 p (fun q => sumTo (fun k => x (i - k)) q) rfl rfl rfl (by omega) ?_ ?_
  · intro q _ h4
    rw [rd_at (i - q) (by omega) (by omega), bind_ok]
    rfl
  refine forUp_bind 0 p (fun q => sumTo (fun k => (o 0 - ((((k : Int) * 2 : Int) : R) + c! 1)) / c! 2 * x (i - k)) q) rfl rfl rfl
    (by omega) ?_ ?_
  · intro q _ h4
    rw [rd_at (i - q) (by omega) (by omega), bind_ok]
    rfl
  · rw [wr_pre _ _ _ _ (by omega) ?_, show i + 1 - (p - 1) = i - (p - 1) + 1 by omega]
    unfold shRefVal
    rw [show i - (p - 1) + (p - 1) = i by omega]

/-! ### emsd -/

/-- The variance emsd takes the root of, output `j`; `dv` divides by the period. -/
def emsdVar (p : Nat) (dv : R → R) (x : Nat → R) (j : Nat) : R :=
  let s := slideS x p (j + (p - 1)) + x (j + (p - 1))
  let s2 := slideS (fun i => x i * x i) p (j + (p - 1)) + x (j + (p - 1)) * x (j + (p - 1))
  if j = 0 then dv s2 - CMath.pow (dv s) (c! 2) else dv s2 - dv s * dv s

/-- The average of variances, kept but never used. -/
def emsdE (f : R → R → R) (v : Nat → R) : Nat → R
  | 0 => v 0
  | k + 1 => f (v (k + 1)) (emsdE f v k)

/-- State of emsd before bar `n`. -/
def emsdTraj (p : Nat) (dv : R → R) (f : R → R → R) (x : Nat → R) (n : Nat) : EmsdSt R :=
  ⟨slideS x p n, slideS (fun i => x i * x i) p n, if n < p then none else some (emsdE f (emsdVar p dv x) (n - p))⟩

theorem emsd_warm {p : Nat} {dv : R → R} {f : R → R → R} {x : Nat → R} {n : Nat} (h : n < p - 1) :
    (emsdTraj p dv f x n).add (x n) = emsdTraj p dv f x (n + 1) := by
  unfold emsdTraj EmsdSt.add
  simp only [slideS, if_pos h, if_pos (show n < p by omega), if_pos (show n + 1 < p by omega)]

theorem emsd_first {p : Nat} (hp : 1 ≤ p) {dv : R → R} {f : R → R → R} {x : Nat → R} :
    (({ (emsdTraj p dv f x (p - 1)).add (x (p - 1)) with ema := some (emsdVar p dv x 0) } : EmsdSt R)).drop (x 0) =
      emsdTraj p dv f x p := by
  obtain ⟨q, rfl⟩ : ∃ q, p = q + 1 := ⟨p - 1, by omega⟩
  unfold emsdTraj EmsdSt.add EmsdSt.drop
  simp only [Nat.add_sub_cancel, slideS, Nat.sub_self, if_neg (Nat.lt_irrefl _)]
  rfl

theorem emsd_main {p : Nat} (hp : 1 ≤ p) {dv : R → R} {f : R → R → R} {x : Nat → R} {n : Nat} (h : p ≤ n) :
    (({ (emsdTraj p dv f x n).add (x n) with
        ema := some (f (emsdVar p dv x (n - (p - 1))) (emsdE f (emsdVar p dv x) (n - p))) } : EmsdSt R)).drop (x (n - (p - 1))) =
      emsdTraj p dv f x (n + 1) := by
  unfold emsdTraj EmsdSt.add EmsdSt.drop
  simp only [slideS, if_neg (show ¬ n < p - 1 by omega), if_neg (show ¬ n < p by omega), if_neg (show ¬ n + 1 < p by omega)]
  congr 2
  rw [show n + 1 - p = n - p + 1 by omega, show n - (p - 1) = n - p + 1 by omega]
  rfl

theorem emsd_loops (p : Nat) (hp : 1 ≤ p) (dv : R → R) (f : R → R → R) (q : M R) (g : R → R → R → R) (w : R) (hq : q = .ok w)
    (hg : ∀ v e, g w v e = f v e) (x : Nat → R) (N : Nat) (cap : Int) (hcap : cap = (N : Int) - ((p - 1 : Nat) : Int)) :
    (do
      let i1 := upto 0 ((p : Int) - 1) (N : Int)
      let s ← forUp 0 i1 (⟨c! 0, c! 0, none⟩ : EmsdSt R) fun i s => do
        return s.add (← rd (pre x N) i)
      let i2 := upto i1 (p : Int) (N : Int)
      let t ← forUp i1 i2 (s, ([] : List R)) fun i t => do
        let s := t.1.add (← rd (pre x N) i)
        let variance := dv s.sum2 - CMath.pow (dv s.sum) (c! 2)
        let out ← wr cap t.2 (CMath.sqrt variance)
        return (({ s with ema := some variance }).drop (← rd (pre x N) (i - (p : Int) + 1)), out)
      let t ← forUp i2 (N : Int) t fun i t => do
        let s := t.1.add (← rd (pre x N) i)
        let variance := dv s.sum2 - dv s.sum * dv s.sum
        let e ← getV s.ema
        let q ← q
        let ema := g q variance e
        let out ← wr cap t.2 (CMath.sqrt variance)
        return (({ s with ema := some ema }).drop (← rd (pre x N) (i - (p : Int) + 1)), out)
      return ((.okay, t.2) : Ret × List R) : M (Ret × List R)) =
    .ok (.okay, pre (fun j => CMath.sqrt (emsdVar p dv x j)) (N - (p - 1))) := by
  refine forUp_bind 0 (min (p - 1) N) (fun i => emsdTraj p dv f x i) rfl (by unfold upto; omega) ?_ (by omega) ?_ ?_
  · unfold emsdTraj
    rw [if_pos (by omega)]
    rfl
  · intro i _ h2
    rw [rd_at i rfl (by omega), bind_ok, pure_eq, emsd_warm (by omega)]
  refine forUp_bind (min (p - 1) N) (min p N)
    (fun i => (emsdTraj p dv f x i, pre (fun j => CMath.sqrt (emsdVar p dv x j)) (i - (p - 1)))) (by unfold upto; omega)
    (by unfold upto; omega) ?_ (by omega) ?_ ?_
  · rw [show min (p - 1) N - (p - 1) = 0 by omega, pre_zero]
  · intro i h1 h2
    obtain rfl : i = p - 1 := by omega
    simp only []
    have hv : dv ((emsdTraj p dv f x (p - 1)).add (x (p - 1))).sum2 -
        CMath.pow (dv ((emsdTraj p dv f x (p - 1)).add (x (p - 1))).sum) (c! 2) = emsdVar p dv x 0 := by
      unfold emsdTraj EmsdSt.add emsdVar
      simp only [Nat.zero_add, if_true]
    rw [rd_at (p - 1) rfl (by omega), bind_ok]
    simp only [hv]
    rw [show p - 1 + 1 - (p - 1) = 0 + 1 by omega, show p - 1 - (p - 1) = 0 by omega,
      wr_pre _ (fun j => CMath.sqrt (emsdVar p dv x j)) 0 _ (by omega) rfl, bind_ok,
      rd_at 0 (by omega) (by omega), bind_ok, pure_eq]
    have := emsd_first hp (dv := dv) (f := f) (x := x)
    rw [show p - 1 + 1 = p by omega]
    rw [this]
  refine forUp_bind (min p N) N
    (fun i => (emsdTraj p dv f x i, pre (fun j => CMath.sqrt (emsdVar p dv x j)) (i - (p - 1)))) (by unfold upto; omega) rfl
    rfl (by omega) ?_ rfl
  intro i h1 h2
  simp only []
  have hv : dv ((emsdTraj p dv f x i).add (x i)).sum2 -
      dv ((emsdTraj p dv f x i).add (x i)).sum * dv ((emsdTraj p dv f x i).add (x i)).sum = emsdVar p dv x (i - (p - 1)) := by
    unfold emsdTraj EmsdSt.add emsdVar
    simp only []
    rw [if_neg (by omega), show i - (p - 1) + (p - 1) = i by omega]
  have he : getV ((emsdTraj p dv f x i).add (x i)).ema = .ok (emsdE f (emsdVar p dv x) (i - p)) := by
    unfold emsdTraj EmsdSt.add
    simp only []
    rw [if_neg (by omega)]
    rfl
  rw [rd_at i rfl (by omega), bind_ok]
  simp only [hv, he, bind_ok, hq, hg]
  rw [show i + 1 - (p - 1) = i - (p - 1) + 1 by omega,
    wr_pre _ (fun j => CMath.sqrt (emsdVar p dv x j)) (i - (p - 1)) _ (by omega) rfl, bind_ok,
    rd_at (i - (p - 1)) (by omega) (by omega), bind_ok, pure_eq, emsd_main hp (by omega)]

theorem emsdStart_ok {o : Nat → R} {p : Nat} {m : Int} (hc : toInt (o 0) = .ok (p : Int)) (h1 : toInt (o 1) = .ok m) (hp : 1 ≤ p) :
    emsdStart o = .ok ((p - 1 : Nat) : Int) := by
  have := toInt_range hc
  unfold emsdStart
  rw [hc, bind_ok, h1, bind_ok, i32_ok _ (by omega) (by omega)]
  congr 1; omega

theorem emsd_run (o : Nat → R) (p m : Nat) (hc : toInt (o 0) = .ok (p : Int)) (h1 : toInt (o 1) = .ok (m : Int)) (hp : 1 ≤ p)
    (hm : 1 ≤ m) (hb : m < 2147483647) :
    Computes emsdBatch o (p - 1) (fun x j => CMath.sqrt (emsdVar p (· / ((p : Int) : R)) x j)) := by
  intro x N
  unfold emsdBatch
  simp only [hc, h1, bind_ok, emsdStart_ok hc h1 hp, length_pre]
  rw [if_neg (by omega), if_neg (by omega), i32_ok _ (by omega) (by omega)]
  exact emsd_loops p hp (· / ((p : Int) : R)) (fun v e => (v - e) * c! 2 / (((m : Int) + 1 : Int) : R) + e)
    (.ok (((m : Int) + 1 : Int) : R)) (fun w v e => (v - e) * c! 2 / w + e) _ rfl (fun _ _ => rfl) x N _ rfl

theorem emsdRef_run (o : Nat → R) (p : Nat) (m : Int) (hlt0 : ¬ o 0 < c! 1) (hlt1 : ¬ o 1 < c! 1) (hc : toInt (o 0) = .ok (p : Int))
    (h1 : toInt (o 1) = .ok m) (hb : bound (o 0) = .ok (p : Int)) (hb1 : bound (o 0 - c! 1) = .ok ((p : Int) - 1)) (hp : 1 ≤ p) :
    Computes emsdRef o (p - 1) (fun x j => CMath.sqrt (emsdVar p (· / o 0) x j)) := by
  intro x N
  unfold emsdRef
  simp only [hc, bind_ok, emsdStart_ok hc h1 hp, length_pre, hb, hb1]
  rw [if_neg hlt0, if_neg hlt1]
  exact emsd_loops p hp (· / o 0) (fun v e => (v - e) * c! 2 / (o 1 + c! 1) + e)
    (.ok (o 1 + c! 1)) (fun w v e => (v - e) * c! 2 / w + e) _ rfl (fun _ _ => rfl) x N _ rfl

theorem emsdPhases_ordered (k : EmsdK R) : Phases.Ordered (emsdPhases k) := by
  phases_ordered emsdPhases

theorem emsd_stream_run (o : Nat → R) (p m : Nat) (hc : toInt (o 0) = .ok (p : Int)) (h1 : toInt (o 1) = .ok (m : Int)) (hp : 1 ≤ p)
    (hm : 1 ≤ m) : (emsd (R := R)).StreamComputes o (p - 1)
      (fun x j => CMath.sqrt (emsdVar p (· * (c! 1 / ((p : Int) : R))) x j)) := by
  generalize hpr : (c! 1 / ((p : Int) : R) : R) = pr
  generalize hmr : (c! 1 / (((m : Int) : R) + c! 1) : R) = mr
  let f : R → R → R := fun v e => (v - e) * c! 2 * mr + e
  refine streamComputes_traj (I := emsd) (k := ⟨p, pr, mr⟩) (s0 := ⟨⟨c! 0, c! 0, none⟩, Ring.after (fun _ => c! 0) p 0⟩) ?_
    (emsdPhases_ordered _) (fun x n => ⟨emsdTraj p (· * pr) f x n, Ring.after x p n⟩) ?_ ?_
  · simp only [emsd, emsdNew, hc, h1, emsdStart_ok hc h1 hp, bind_ok, pure_eq]
    rw [if_neg (by omega), if_neg (by omega), Ring.make_after (fun _ => c! 0) _ hp, bind_ok, hpr, hmr]
  · intro x
    unfold emsdTraj
    rw [if_pos (by omega)]
    rfl
  · intro x n
    simp only [barStep, emsd, emsdPhases, List.find?]
    by_cases h2 : n < p - 1
    · rw [decide_eq_true (by omega), if_pos h2]
      simp only [Ring.after_set x _ hp n (x n) rfl, bind_ok, Ring.now_step, pure_eq, emsd_warm h2]
    rw [decide_eq_false (by omega), if_neg h2]
    by_cases h3 : n = p - 1
    · subst h3
      rw [decide_eq_true (by omega)]
      have hv : ((emsdTraj p (· * pr) f x (p - 1)).add (x (p - 1))).sum2 * pr -
          CMath.pow (((emsdTraj p (· * pr) f x (p - 1)).add (x (p - 1))).sum * pr) (c! 2) = emsdVar p (· * pr) x 0 := by
        unfold emsdTraj EmsdSt.add emsdVar
        simp only [Nat.zero_add, if_true]
      simp only [Ring.after_set x _ hp _ _ rfl, bind_ok, Ring.now_step, pure_eq, hv,
        Ring.now_get x p (p - 1) ((p : Int) - 1) (p - 1) (by omega) (by omega) (by omega), Nat.sub_self]
      rw [emsd_first hp, show p - 1 + 1 = p by omega]
    · rw [decide_eq_false (by omega)]
      have hv : ((emsdTraj p (· * pr) f x n).add (x n)).sum2 * pr -
          ((emsdTraj p (· * pr) f x n).add (x n)).sum * pr * (((emsdTraj p (· * pr) f x n).add (x n)).sum * pr) =
            emsdVar p (· * pr) x (n - (p - 1)) := by
        unfold emsdTraj EmsdSt.add emsdVar
        simp only []
        rw [if_neg (by omega), show n - (p - 1) + (p - 1) = n by omega]
      have he : getV ((emsdTraj p (· * pr) f x n).add (x n)).ema = .ok (emsdE f (emsdVar p (· * pr) x) (n - p)) := by
        unfold emsdTraj EmsdSt.add
        simp only []
        rw [if_neg (by omega)]
        rfl
      simp only [Ring.after_set x _ hp _ _ rfl, bind_ok, Ring.now_step, pure_eq, hv, he,
        Ring.now_get x p n ((p : Int) - 1) (p - 1) (by omega) (by omega) (by omega)]
      have := emsd_main hp (dv := (· * pr)) (f := f) (x := x) (n := n) (by omega)
      rw [this]

/-! ### edcf -/

theorem pre_cons {α : Type} (f : Nat → α) (n : Nat) : f 0 :: pre (fun k => f (k + 1)) n = pre f (n + 1) := by
  rw [← seg_zero_eq_pre f, seg_succ]
  simp [seg, pre, Nat.add_comm]

theorem pre_dropLast {α : Type} (f : Nat → α) (n : Nat) : (pre f (n + 1)).dropLast = pre f n := by
  rw [pre_succ]; simp

/-- Squared distances of the value `c` back to the `n - 1` values before it; `y` is the history, newest first. -/
def edW (n : Nat) (y : Nat → R) (c : Nat) : R :=
  sumTo (fun l => (y c - y (c + (l + 1))) * (y c - y (c + (l + 1)))) (n - 1)

/-- One output of edcf. -/
def edVal (n : Nat) (y : Nat → R) : R :=
  if sumTo (edW n y) n == c! 0 then c! 0 else sumTo (fun c => edW n y c * y c) n / sumTo (edW n y) n

theorem edcfDist_ok (n : Nat) (hn : 1 ≤ n) (y : Nat → R) (L c : Nat) (h : c + n ≤ L) :
    edcfDist (n : Int) (pre y L) (c : Int) = .ok (edW n y c) := by
  unfold edcfDist edW
  have := forUp_nat (a := 1) (b := n) (f := fun l d => do
      let a ← rd (pre y L) (c : Int)
      let b ← rd (pre y L) ((c : Int) + l)
      return d + (a - b) * (a - b))
    (fun l => sumTo (fun l => (y c - y (c + (l + 1))) * (y c - y (c + (l + 1)))) (l - 1)) hn ?_
  · exact this
  · intro l h1 h2
    obtain ⟨l, rfl⟩ : ∃ k, l = k + 1 := ⟨l - 1, by omega⟩
    rw [rd_at c rfl (by omega), bind_ok, rd_at (c + (l + 1)) (by omega) (by omega), bind_ok]
    rfl

theorem edcfOut_ok (n m : Nat) (hn : 1 ≤ n) (hm : n ≤ m) (y : Nat → R) (L : Nat) (h : 2 * n - 1 ≤ L) :
    edcfOut (n : Int) (m : Int) (pre y L) = .ok (edVal n y) := by
  unfold edcfOut
  refine forUp_bind 0 n (fun i => pre (edW n y) i) rfl rfl rfl (by omega) ?_ ?_
  · intro i _ h2
    rw [edcfDist_ok n hn y L i (by omega), bind_ok]
    exact wr_pre _ _ i _ (by omega) rfl
  refine forUp_bind 0 n (fun i => (sumTo (fun c => edW n y c * y c) i, sumTo (edW n y) i)) rfl rfl rfl (by omega) ?_ rfl
  intro i _ h2
  rw [rd_at i rfl h2, bind_ok, rd_at i rfl (by omega), bind_ok]
  rfl

theorem edcfPhases_ordered (k : Int × Int) : Phases.Ordered (edcfPhases (R := R) k) := by
  phases_ordered edcfPhases

theorem edcf_cons (x : Nat → R) (n L : Nat) : x n :: pre (fun k => x (n - 1 - k)) L = pre (fun k => x (n - k)) (L + 1) := by
  rw [← pre_cons]
  congr 2
  funext k
  congr 1
  omega

theorem edcf_step (n m s : Nat) (hn : 1 ≤ n) (hm : n ≤ m) (h : 2 * n - 2 ≤ s) (x : Nat → R) (i : Nat) :
    barStep (edcfPhases ((n : Int), (m : Int))) (-(s : Int) + i) (x i) (pre (fun k => x (i - 1 - k)) (min i s)) =
      .ok (pre (fun k => x (i + 1 - 1 - k)) (min (i + 1) s), if i < s then [] else [edVal n (fun k => x (i - s + s - k))]) := by
  simp only [barStep, edcfPhases, List.find?]
  by_cases hi : i < s
  · rw [decide_eq_true (by omega), if_pos hi]
    simp only [edcf_cons]
    rw [show min i s + 1 = min (i + 1) s by omega]
    simp only [Nat.add_sub_cancel]
    rfl
  · rw [decide_eq_false (by omega), if_neg hi]
    simp only [edcf_cons]
    rw [edcfOut_ok n m hn hm _ _ (by omega), bind_ok, pre_dropLast, show min (i + 1) s = min i s by omega,
      show i - s + s = i by omega]
    rfl

theorem edcf_run (o : Nat → R) (n m s : Nat) (hlt : ¬ o 0 < c! 1) (hs : edcfStart o = .ok (s : Int)) (hm : vecSize (c! 2 * o 0) = .ok (m : Int))
    (hn : bound (o 0) = .ok (n : Int)) (h1 : 1 ≤ n) (h2 : n ≤ m) (h3 : 2 * n - 2 ≤ s) :
    Computes edcfBatch o s (fun x j => edVal n (fun k => x (j + s - k))) := by
  refine computes_of_loop (phs := edcfPhases ((n : Int), (m : Int))) (p0 := -(s : Int)) (s0 := []) (start := s) ?_
    ((edcfPhases_ordered _).from _) (fun x i => pre (fun k => x (i - 1 - k)) (min i s)) (fun x => by simp) ?_
  · intro xs
    simp only [edcfBatch, hs, hm, hn, bind_ok]
    rw [if_neg hlt]
  · intro x i
    exact edcf_step n m s h1 h2 h3 x i

theorem edcf_stream_run (o : Nat → R) (n m s : Nat) (hlt : ¬ o 0 < c! 1) (hs : edcfStart o = .ok (s : Int))
    (hm : vecSize (c! 2 * o 0) = .ok (m : Int)) (hn : bound (o 0) = .ok (n : Int)) (h1 : 1 ≤ n) (h2 : n ≤ m) (h3 : 2 * n - 2 ≤ s) :
    (edcf (R := R)).StreamComputes o s (fun x j => edVal n (fun k => x (j + s - k))) := by
  refine streamComputes_traj (I := edcf) (k := ((n : Int), (m : Int))) (s0 := []) ?_ (edcfPhases_ordered _)
    (fun x i => pre (fun k => x (i - 1 - k)) (min i s)) (fun x => by simp; rfl) ?_
  · simp only [edcf, edcfNew, hs, hm, hn, bind_ok]
    rw [if_neg hlt]
    rfl
  · intro x i
    exact edcf_step n m s h1 h2 h3 x i

/-- With one iteration more than prices, the first output reads past the prices. -/
theorem edcfOut_err (n m : Nat) (hn : 2 ≤ n) (hm : n ≤ m) (y : Nat → R) :
    edcfOut (n : Int) (m : Int) (pre y (2 * n - 2)) = .error .oobRead := by
  unfold edcfOut
  refine bind_err ?_
  refine forUp_err 0 (n - 1) (fun i => pre (edW n y) i) rfl rfl (by omega) (by omega) ?_ ?_
  · intro i _ h2
    rw [edcfDist_ok n (by omega) y _ i (by omega), bind_ok]
    exact wr_pre _ _ i _ (by omega) rfl
  · refine bind_err ?_
    unfold edcfDist
    refine forUp_err 1 (n - 1) (fun l => sumTo (fun l => (y (n - 1) - y (n - 1 + (l + 1))) * (y (n - 1) - y (n - 1 + (l + 1)))) (l - 1))
      rfl rfl (by omega) (by omega) ?_ ?_
    · intro l h1 h2
      obtain ⟨l, rfl⟩ : ∃ k, l = k + 1 := ⟨l - 1, by omega⟩
      rw [rd_at (n - 1) rfl (by omega), bind_ok, rd_at (n - 1 + (l + 1)) (by omega) (by omega), bind_ok]
      rfl
    · rw [rd_at (n - 1) rfl (by omega), bind_ok, rd_oob _ _ (by simp; omega)]
      rfl

theorem edcf_err (o : Nat → R) (n m : Nat) (hlt : ¬ o 0 < c! 1) (hs : edcfStart o = .ok ((2 * n - 3 : Nat) : Int))
    (hm : vecSize (c! 2 * o 0) = .ok (m : Int)) (hn : bound (o 0) = .ok (n : Int)) (h1 : 2 ≤ n) (h2 : n ≤ m) (xs : List R)
    (hx : 2 * n - 2 ≤ xs.length) : edcfBatch o xs = .error .oobRead := by
  obtain ⟨x, hxs⟩ := exists_pre xs
  rw [hxs]
  simp only [edcfBatch, hs, hm, hn, bind_ok, length_pre]
  rw [if_neg hlt]
  refine loopBatch_err _ ((edcfPhases_ordered _).from _) x (fun i => pre (fun k => x (i - 1 - k)) i) (fun _ => []) _ (2 * n - 3)
    (by simp) ?_ ?_ _ (by omega)
  · intro i hi
    simp only [barStep, edcfPhases, List.find?]
    rw [decide_eq_true (by omega)]
    simp only [edcf_cons, Nat.add_sub_cancel]
    rfl
  · simp only [barStep, edcfPhases, List.find?]
    rw [decide_eq_false (by omega)]
    simp only [edcf_cons]
    rw [show 2 * n - 3 + 1 = 2 * n - 2 by omega, edcfOut_err n m h1 h2]
    rfl

end Any
end Verif
