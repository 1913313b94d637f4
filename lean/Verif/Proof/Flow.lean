/- fi, mgdyn, pvt, kc, tsi, rmi, vwap, evwma, vi: runs in any arithmetic (helper lemmas). -/
import Verif.Model.Flow
import Verif.Proof.Loop
import Verif.Proof.Filters
import Verif.Proof.Sum
import Verif.Proof.Osc
import Verif.Proof.Ema
import Verif.Proof.Simple

set_option linter.unusedSectionVars false
set_option linter.unusedSimpArgs false
set_option linter.unusedVariables false

namespace Verif
variable {R : Type} [Num R]

/-- Loops `progress == -1`, `progress == 0`, rest. -/
theorem ordered_m1 {ρ σ ω : Type} (a b c : Int → ρ → σ → M (σ × List ω)) :
    Phases.OrderedFrom (-1) [⟨fun p => decide (p = -1), a⟩, ⟨fun p => decide (p = 0), b⟩, ⟨fun _ => true, c⟩] := by
  refine ⟨?_, fun p _ => ⟨_, List.mem_cons_of_mem _ (List.mem_cons_of_mem _ (List.mem_cons_self ..)), rfl⟩⟩
  simp only [Phases.Leaves, decide_eq_false_iff_not]
  refine fun p h1 h2 => ⟨by omega, fun p' h3 h4 => ⟨by omega, fun _ _ h5 => by simp at h5⟩⟩

theorem bind_ok' {α β : Type} {m : M α} {a : α} {k : α → M β} (h : m = .ok a) : (m >>= k) = k a := by rw [h, bind_ok]

/-! ### fi -/

/-- Volume times price change at bar `k + 1`. -/
def fiSig (x : Nat → CV R) (k : Nat) : R := (x (k + 1)).volume * ((x (k + 1)).close - (x k).close)

/-- The batch recurrence: the first value is already one step from itself. -/
def fiRec (a : R) (f : Nat → R) : Nat → R
  | 0 => (f 0 - f 0) * a + f 0
  | n + 1 => (f (n + 1) - fiRec a f n) * a + fiRec a f n

def fiPer (o : Nat → R) : R := c! 2 / (o 0 + c! 1)

theorem fi_run (o : Nat → R) (h : ¬ o 0 < c! 1) :
    Computes fiBatch o 1 (fun x => fiRec (fiPer o) (fiSig x)) := by
  intro x N
  unfold fiBatch
  simp only [if_neg h, fiStart, bind_ok, length_pre, pure_eq]
  by_cases hN : (N : Int) ≤ 1
  · rw [if_pos hN, show N - 1 = 0 by omega]; rfl
  rw [if_neg hN, rd_at 1 (by omega) (by omega), bind_ok, bind_ok, rd_zero _ _ (by omega), bind_ok]
  refine forUp_bind 1 N (fun i => (if i = 1 then fiSig x 0 else fiRec (fiPer o) (fiSig x) (i - 2),
    pre (fiRec (fiPer o) (fiSig x)) (i - 1))) rfl rfl rfl (by omega) ?_ rfl
  intro i h1 h2
  simp only []
  rw [rd_at i rfl h2, bind_ok, bind_ok, rd_at (i - 1) (by omega) (by omega), bind_ok]
  have hv : ((x i).volume * ((x i).close - (x (i - 1)).close) - (if i = 1 then fiSig x 0 else fiRec (fiPer o) (fiSig x) (i - 2))) *
      (c! 2 / (o 0 + c! 1)) + (if i = 1 then fiSig x 0 else fiRec (fiPer o) (fiSig x) (i - 2)) =
      fiRec (fiPer o) (fiSig x) (i - 1) := by
    match i, h1 with
    | 1, _ => rfl
    | k + 2, _ => rfl
  rw [hv, wr_pre _ _ _ _ (by omega) rfl, bind_ok, if_neg (by omega)]
  rw [show i - 1 + 1 = i + 1 - 1 by omega, show i + 1 - 2 = i - 1 by omega]

def fiTraj (a : R) (x : Nat → CV R) : Nat → FiS R
  | 0 => ⟨c! 0, c! 0⟩
  | 1 => ⟨c! 0, (x 0).close⟩
  | n + 2 => ⟨emaRec a (fiSig x) n, (x (n + 1)).close⟩

theorem fi_stream_run (o : Nat → R) (h : ¬ o 0 < c! 1) :
    (fi (R := R)).StreamComputes o 1 (fun x => emaRec (fiPer o) (fiSig x)) := by
  refine streamComputes_traj' (I := fi) (k := (fiPer o : R)) (s0 := (⟨c! 0, c! 0⟩ : FiS R)) ?_ (ordered_m1 _ _ _) (fiTraj (fiPer o))
    (fun x => rfl) ?_
  · simp only [fi, fiNew, if_neg h]; rfl
  · intro x n
    simp only [barStep, fi, fiPhases, List.find?]
    match n with
    | 0 => rfl
    | 1 => rfl
    | n + 2 =>
      rw [decide_eq_false (by omega), decide_eq_false (by omega), if_neg (by omega)]
      rfl

theorem emaInPlace_pre {o : Nat → R} {p : Nat} (hc : toInt (o 0) = .ok (p : Int)) (hp : 1 ≤ p) (x : Nat → R) (n : Nat) :
    emaInPlace o (pre x n) = .ok (pre (emaRec (emaPer p) x) n) := by
  unfold emaInPlace
  rw [ema_run o p hc hp x n, bind_ok]
  rfl

theorem fiRef_run (o : Nat → R) (p : Nat) (hc : toInt (o 0) = .ok (p : Int)) (hp : 1 ≤ p) :
    Computes fiRef o 1 (fun x => emaRec (emaPer p) (fiSig x)) := by
  intro x N
  unfold fiRef
  simp only [fiStart, bind_ok, length_pre, pure_eq]
  by_cases hN : (N : Int) ≤ 1
  · rw [if_pos hN, show N - 1 = 0 by omega]; rfl
  rw [if_neg hN]
  refine forUp_bind 1 N (fun i => pre (fiSig x) (i - 1)) rfl rfl rfl (by omega) ?_ ?_
  · intro i h1 h2
    rw [rd_at i rfl h2, bind_ok, bind_ok, rd_at (i - 1) (by omega) (by omega), bind_ok]
    have hv : (x i).volume * ((x i).close - (x (i - 1)).close) = fiSig x (i - 1) := by
      unfold fiSig; rw [show i - 1 + 1 = i by omega]
    rw [hv, wr_pre _ _ _ _ (by omega) rfl, show i - 1 + 1 = i + 1 - 1 by omega]
  · rw [emaInPlace_pre hc hp]; rfl

/-! ### mgdyn -/

def mgRec (n : R) (x : Nat → R) : Nat → R
  | 0 => x 0
  | k + 1 => mgRec n x k + (x (k + 1) - mgRec n x k) / (n * CMath.pow (x (k + 1) / mgRec n x k) (c! 4))

theorem mgdynPhases_ordered (k : R) : Phases.Ordered (mgdynPhases k) := by phases_ordered mgdynPhases

def mgTraj (i0 : Option R) (n : R) (x : Nat → R) : Nat → Option R
  | 0 => i0
  | k + 1 => some (mgRec n x k)

theorem mg_step (i0 : Option R) (nn : R) (x : Nat → R) (n : Nat) :
    barStep (mgdynPhases nn) (0 + n) (x n) (mgTraj i0 nn x n) = .ok (mgTraj i0 nn x (n + 1), [mgRec nn x n]) := by
  simp only [barStep, mgdynPhases, List.find?]
  match n with
  | 0 => rfl
  | n + 1 => rw [decide_eq_false (by omega)]; rfl

theorem mgdyn_run (o : Nat → R) : Computes mgdynBatch o 0 (mgRec (o 0)) :=
  computes_of_loop (phs := mgdynPhases (o 0)) (p0 := 0) (s0 := none) (fun xs => rfl) ((mgdynPhases_ordered _).from _)
    (mgTraj none (o 0)) (fun x => rfl) (fun x n => mg_step none (o 0) x n)

theorem mgdyn_stream_run (o : Nat → R) : (mgdyn (R := R)).StreamComputes o 0 (mgRec (o 0)) := by
  refine streamComputes_traj (I := mgdyn) (k := o 0) (s0 := some (c! 0)) rfl (mgdynPhases_ordered _)
    (mgTraj (some (c! 0)) (o 0)) (fun x => rfl) ?_
  intro x n
  exact mg_step (some (c! 0)) (o 0) x n

/-! ### pvt -/

def pvtRec (x : Nat → CV R) : Nat → R
  | 0 => if both (x 1).volume (x 0).volume then pvtMove (x 1) (x 0).close + (x 0).volume else c! 0
  | n + 1 => if both (x (n + 2)).volume (x (n + 1)).volume then pvtRec x n + pvtMove (x (n + 2)) (x (n + 1)).close
    else c! 0

def pvtRecS (x : Nat → CV R) : Nat → R
  | 0 => if both (x 1).volume (x 0).volume then pvtMove (x 1) (x 0).close + (x 0).volume else c! 0
  | n + 1 => pvtRecS x n + (if both (x (n + 2)).volume (pvtRecS x n) then pvtMove (x (n + 2)) (x (n + 1)).close else c! 0)

/-- The recurrence of the reference: no test for zero. -/
def pvtRecR (x : Nat → CV R) : Nat → R
  | 0 => pvtMove (x 1) (x 0).close + (x 0).volume
  | n + 1 => pvtRecR x n + pvtMove (x (n + 2)) (x (n + 1)).close

theorem pvt_run (o : Nat → R) : Computes pvtBatch o 1 pvtRec := by
  have : Inhabited R := ⟨c! 0⟩
  intro x N
  unfold pvtBatch
  simp only [pvtStart, bind_ok, length_pre, pure_eq]
  by_cases hN : N ≤ 1
  · rw [forUp_empty (by unfold upto; omega), bind_ok, forUp_empty (by unfold upto; omega), bind_ok, show N - 1 = 0 by omega]
    rfl
  have hu : upto 1 2 N = 2 := by unfold upto; omega
  rw [hu]
  refine forUp_bind 1 2 (fun i => pre (pvtRec x) (i - 1)) rfl rfl rfl (by omega) ?_ ?_
  · intro i h1 h2
    obtain rfl : i = 1 := by omega
    rw [rd_at 1 rfl (by omega), bind_ok, rd_at 0 (by omega) (by omega), bind_ok]
    exact wr_pre _ _ _ _ (by omega) rfl
  · refine forUp_bind 2 N (fun i => pre (pvtRec x) (i - 1)) rfl rfl rfl (by omega) ?_ rfl
    intro i h1 h2
    obtain ⟨k, rfl⟩ : ∃ k, i = k + 2 := ⟨i - 2, by omega⟩
    rw [rd_at (k + 2) rfl (by omega), bind_ok, rd_at (k + 1) (by omega) (by omega), bind_ok, length_pre,
      rd_at k (by omega) (by omega), bind_ok]
    by_cases hb : both (x (k + 2)).volume (x (k + 1)).volume = true
    · rw [if_pos hb]
      exact wr_pre _ (pvtRec x) (k + 1) _ (by omega) (by rw [pvtRec, if_pos hb])
    · rw [if_neg hb]
      exact wr_pre _ (pvtRec x) (k + 1) _ (by omega) (by rw [pvtRec, if_neg hb])

/-- The reference on at least two bars. -/
theorem pvtRef_run (o : Nat → R) (x : Nat → CV R) (N : Nat) (hN : 2 ≤ N) :
    pvtRef o (pre x N) = .ok (.okay, pre (pvtRecR x) (N - 1)) := by
  unfold pvtRef
  simp only [pvtStart, bind_ok, length_pre, pure_eq]
  rw [rd_at (i := 1) 1 rfl (by omega), bind_ok, rd_zero _ _ (by omega), bind_ok,
    show wr ((N : Int) - 1) ([] : List R) (pvtMove (x 1) (x 0).close + (x 0).volume) = .ok (pre (pvtRecR x) 1) from
      wr_pre _ (pvtRecR x) 0 _ (by omega) rfl, bind_ok]
  refine forUp_bind 2 N (fun i => pre (pvtRecR x) (i - 1)) rfl rfl rfl (by omega) ?_ rfl
  intro i h1 h2
  obtain ⟨k, rfl⟩ : ∃ k, i = k + 2 := ⟨i - 2, by omega⟩
  rw [rd_at (k + 2) rfl (by omega), bind_ok, rd_at (k + 1) (by omega) (by omega), bind_ok, length_pre,
    rd_at k (by omega) (by omega), bind_ok]
  exact wr_pre _ (pvtRecR x) (k + 1) _ (by omega) rfl

def pvtTraj (x : Nat → CV R) : Nat → PvtS R
  | 0 => ⟨c! 0, c! 0, c! 0⟩
  | 1 => ⟨(x 0).close, (x 0).volume, c! 0⟩
  | n + 2 => ⟨(x (n + 1)).close, (x 0).volume, pvtRecS x n⟩

theorem pvtPhases_ordered : Phases.OrderedFrom (-1) (pvtPhases (R := R) ()) := by
  refine ⟨?_, fun p _ => ⟨_, List.mem_cons_of_mem _ (List.mem_cons_of_mem _ (List.mem_cons_self ..)), rfl⟩⟩
  simp only [pvtPhases, Phases.Leaves, decide_eq_false_iff_not]
  refine fun p h1 h2 => ⟨by omega, fun p' h3 h4 => ⟨by omega, fun _ _ h5 => by simp at h5⟩⟩

theorem pvt_stream_run (o : Nat → R) : (pvt (R := R)).StreamComputes o 1 pvtRecS := by
  refine streamComputes_traj' (I := pvt) (k := ()) (s0 := (⟨c! 0, c! 0, c! 0⟩ : PvtS R)) rfl pvtPhases_ordered pvtTraj
    (fun x => rfl) ?_
  intro x n
  simp only [barStep, pvt, pvtPhases, List.find?]
  match n with
  | 0 => rfl
  | 1 => rfl
  | n + 2 =>
    rw [decide_eq_false (by omega), decide_eq_false (by omega), if_neg (by omega)]
    rfl

/-! ### kc -/

/-- True range with the bar's own range for the first bar. -/
def kcTr (x : Nat → HLC R) : Nat → R
  | 0 => (x 0).high - (x 0).low
  | n + 1 => stdMax (x (n + 1)).high (x n).close - stdMin (x (n + 1)).low (x n).close

def kcVal (a mult : R) (x : Nat → HLC R) (n : Nat) : Bands R :=
  kcOut mult (emaRec a (fun k => (x k).close) n) (emaRec a (kcTr x) n)

def kcTraj (a : R) (x : Nat → HLC R) : Nat → Option (R × R)
  | 0 => none
  | n + 1 => some (emaRec a (fun k => (x k).close) n, emaRec a (kcTr x) n)

theorem kcLoops_ordered (m a : R) (xs : List (HLC R)) : Phases.Ordered (kcLoops m a xs) := by phases_ordered kcLoops
theorem kcPhases_ordered (k : KcK R) : Phases.Ordered (kcPhases k) := by phases_ordered kcPhases

theorem kc_run (o : Nat → R) (h0 : ¬ o 0 < c! 1) (h1 : ¬ o 1 < c! 0) :
    Computes kcBatch o 0 (kcVal (fiPer o) (o 1)) := by
  refine computes_of_loop2 (phs := fun xs => kcLoops (o 1) (fiPer o) xs) (p0 := 0) (s0 := none) ?_
    (fun xs => (kcLoops_ordered _ _ _).from _) (kcTraj (fiPer o)) (fun x => rfl) ?_
  · intro xs
    simp only [kcBatch, if_neg h0, if_neg h1, kcStart, bind_ok]
    rfl
  · intro x N n hn
    simp only [barStep, kcLoops, List.find?]
    match n with
    | 0 => rfl
    | n + 1 =>
      rw [decide_eq_false (by omega)]
      simp only [kcTraj, getV, bind_ok]
      rw [rd_at n (by omega) (by omega), bind_ok]
      rfl

def kcTrajS (a : R) (x : Nat → HLC R) : Nat → KcS R
  | 0 => ⟨c! 0, c! 0, c! 0⟩
  | n + 1 => ⟨emaRec a (fun k => (x k).close) n, emaRec a (kcTr x) n, (x n).close⟩

theorem kc_stream_run (o : Nat → R) (h0 : ¬ o 0 < c! 0) (h1 : ¬ o 1 < c! 0) :
    (kc (R := R)).StreamComputes o 0 (kcVal (fiPer o) (o 1)) := by
  refine streamComputes_traj (I := kc) (k := (⟨o 1, fiPer o⟩ : KcK R)) (s0 := (⟨c! 0, c! 0, c! 0⟩ : KcS R)) ?_
    (kcPhases_ordered _) (kcTrajS (fiPer o)) (fun x => rfl) ?_
  · simp only [kc, kcNew, if_neg h0, if_neg h1, kcStart]; rfl
  · intro x n
    simp only [barStep, kc, kcPhases, List.find?]
    match n with
    | 0 => rfl
    | n + 1 => rw [decide_eq_false (by omega)]; rfl

/-! ### tsi -/

def tsiRec (p : R) (y : Nat → R) : Nat → R
  | 0 => y 0
  | n + 1 => tsiEma p (y (n + 1)) (tsiRec p y n)

def tsiMove (x : Nat → R) (k : Nat) : R := x (k + 1) - x k

def tsiE (o : Nat → R) (x : Nat → R) (n : Nat) : TsiE R :=
  ⟨tsiRec (o 0) (tsiMove x) n, tsiRec (o 1) (tsiRec (o 0) (tsiMove x)) n,
   tsiRec (o 0) (fun k => CMath.fabs (tsiMove x k)) n, tsiRec (o 1) (tsiRec (o 0) (fun k => CMath.fabs (tsiMove x k))) n⟩

def tsiVal (o : Nat → R) (x : Nat → R) (n : Nat) : R := tsiOut (tsiE o x n)

def tsiTraj (i0 : Option R) (e0 : Option (TsiE R)) (o : Nat → R) (x : Nat → R) : Nat → Option R × Option (TsiE R)
  | 0 => (i0, e0)
  | 1 => (some (x 0), e0)
  | n + 2 => (some (x (n + 1)), some (tsiE o x n))

theorem tsi_step (i0 : Option R) (e0 : Option (TsiE R)) (o : Nat → R) (x : Nat → R) (n : Nat) :
    barStep (tsiPhases (o 0, o 1)) (-1 + n) (x n) (tsiTraj i0 e0 o x n) =
      .ok (tsiTraj i0 e0 o x (n + 1), if n < 1 then [] else [tsiVal o x (n - 1)]) := by
  simp only [barStep, tsiPhases, List.find?]
  match n with
  | 0 => rfl
  | 1 => rfl
  | n + 2 =>
    rw [decide_eq_false (by omega), decide_eq_false (by omega), if_neg (by omega)]
    rfl

theorem tsi_run (o : Nat → R) (h0 : ¬ o 0 < c! 1) (h1 : ¬ o 1 < c! 1) : Computes tsiBatch o 1 (tsiVal o) := by
  refine computes_of_loop (phs := tsiPhases (o 0, o 1)) (p0 := -1) (s0 := (none, none)) ?_ (ordered_m1 _ _ _)
    (tsiTraj none none o) (fun x => rfl) (fun x n => tsi_step none none o x n)
  intro xs
  simp only [tsiBatch, if_neg h0, if_neg h1, tsiStart, bind_ok]
  rfl

theorem tsi_stream_run (o : Nat → R) (h0 : ¬ o 0 < c! 1) (h1 : ¬ o 1 < c! 1) :
    (tsi (R := R)).StreamComputes o 1 (tsiVal o) := by
  refine streamComputes_traj' (I := tsi) (k := (o 0, o 1)) (s0 := (some (c! 0), some ⟨c! 0, c! 0, c! 0, c! 0⟩)) ?_
    (ordered_m1 _ _ _) (tsiTraj (some (c! 0)) (some ⟨c! 0, c! 0, c! 0, c! 0⟩) o) (fun x => rfl)
    (fun x n => tsi_step _ _ o x n)
  simp only [tsi, tsiNew, if_neg h0, if_neg h1, tsiStart]; rfl

theorem tsiRef_run [IntExact R] (o : Nat → R) (p q : Nat) (h0 : ¬ o 0 < c! 1) (h1 : ¬ o 1 < c! 1)
    (hc : toInt (o 0) = .ok (p : Int)) (hp : 1 ≤ p) (hd : toInt (o 1) = .ok (q : Int)) (hq : 1 ≤ q) :
    Computes tsiRef o 1 (fun x n => c! 100 * emaRec (emaPer q) (emaRec (emaPer p) (tsiMove x)) n /
      emaRec (emaPer q) (emaRec (emaPer p) (fun k => CMath.fabs (tsiMove x k))) n) := by
  intro x N
  have h1' : toInt (c! 1 : R) = .ok ((1 : Nat) : Int) := toInt_cast 1 (by omega)
  unfold tsiRef
  simp only [if_neg h0, if_neg h1]
  rw [mom_run (fun _ => c! 1) 1 h1' le_rfl x N]
  simp only [bind_ok, pure_eq, absBatch]
  rw [simple1_run CMath.fabs _ _ _]
  simp only [bind_ok, emaInPlace_pre (o := fun _ => o 0) hc hp, emaInPlace_pre (o := fun _ => o 1) hd hq, length_pre]
  by_cases hN : N = 0
  · subst hN
    rw [forUp_empty (by omega), bind_ok]; rfl
  refine forUp_bind 0 (N - 1) (fun i => pre (fun n => c! 100 * emaRec (emaPer q) (emaRec (emaPer p) (tsiMove x)) n /
      emaRec (emaPer q) (emaRec (emaPer p) (fun k => CMath.fabs (tsiMove x k))) n) i) rfl (by omega) rfl (by omega) ?_ rfl
  intro i _ h2
  rw [rd_at i rfl (by omega), bind_ok, rd_at i rfl (by omega), bind_ok]
  exact wr_pre _ _ _ _ (by omega) rfl

/-! ### rmi -/

def rmiUp (p : Nat) (x : Nat → R) (k : Nat) : R := cMax (c! 0) (x (k + p) - x k)
def rmiDown (p : Nat) (x : Nat → R) (k : Nat) : R := cMax (c! 0) (x k - x (k + p))

def rmiVal (o : Nat → R) (p : Nat) (x : Nat → R) (j : Nat) : R :=
  rmiOut (tsiRec (o 0) (rmiUp p x) j) (tsiRec (o 0) (rmiDown p x) j)

theorem rmi_run (o : Nat → R) (p : Nat) (h0 : ¬ o 0 < c! 1) (h1 : ¬ o 1 < c! 1) (hc : toInt (o 1) = .ok (p : Int))
    (hcmp : ∀ N : Nat, ((N : Int) : R) < o 1 + c! 1 ↔ N < p + 1) :
    Computes rmiBatch o p (rmiVal o p) := by
  intro x N
  unfold rmiBatch
  simp only [if_neg h0, if_neg h1, length_pre, pure_eq, rmiStart, hc, bind_ok]
  by_cases hN : N < p + 1
  · rw [if_pos ((hcmp N).2 hN), show N - p = 0 by omega]; rfl
  rw [if_neg (fun h => hN ((hcmp N).1 h)), rd_at p rfl (by omega), rd_at 0 (by omega) (by omega)]
  simp only [bind_ok]
  rw [show wr ((N : Int) - p) ([] : List R) (rmiOut (cMax (c! 0) (x p - x 0)) (cMax (c! 0) (x 0 - x p))) =
      .ok (pre (rmiVal o p x) 1) from wr_pre _ (rmiVal o p x) 0 _ (by omega) (by
        simp only [rmiVal, tsiRec, rmiUp, rmiDown, Nat.zero_add]), bind_ok]
  refine forUp_bind (p + 1) N (fun i => (tsiRec (o 0) (rmiUp p x) (i - p - 1), tsiRec (o 0) (rmiDown p x) (i - p - 1),
    pre (rmiVal o p x) (i - p))) (by omega) rfl ?_ (by omega) ?_ ?_
  · simp only [show p + 1 - p = 1 by omega, Nat.sub_self, tsiRec, rmiUp, rmiDown, Nat.zero_add]
  · intro i h2 h3
    obtain ⟨k, rfl⟩ : ∃ k, i = k + 1 + p := ⟨i - 1 - p, by omega⟩
    simp only []
    rw [rd_at (k + 1 + p) rfl h3, rd_at (k + 1) (by omega) (by omega)]
    simp only [bind_ok]
    have e1 : k + 1 + p - p - 1 = k := by omega
    have e2 : k + 1 + p - p = k + 1 := by omega
    have e3 : k + 1 + p + 1 - p - 1 = k + 1 := by omega
    have e4 : k + 1 + p + 1 - p = k + 2 := by omega
    rw [e1, e2, e3, e4]
    exact bind_ok' (wr_pre _ (rmiVal o p x) (k + 1) _ (by omega) rfl)
  · rfl

def rmiUpS (p : Nat) (x : Nat → R) (k : Nat) : R := stdMax (c! 0) (x (k + p) - x k)
def rmiDownS (p : Nat) (x : Nat → R) (k : Nat) : R := stdMax (c! 0) (x k - x (k + p))

def rmiRecS (p : R) (y : Nat → R) : Nat → R
  | 0 => y 0
  | n + 1 => (y (n + 1) - rmiRecS p y n) * c! 2 / (p + c! 1) + rmiRecS p y n

def rmiValS (o : Nat → R) (p : Nat) (x : Nat → R) (j : Nat) : R :=
  rmiOut (rmiRecS (o 0) (rmiUpS p x) j) (rmiRecS (o 0) (rmiDownS p x) j)

def rmiTraj (o : Nat → R) (p : Nat) (x : Nat → R) (n : Nat) : RmiS R :=
  if n ≤ p then ⟨c! 0, c! 0, Ring.after x (p + 1) n⟩
  else ⟨rmiRecS (o 0) (rmiUpS p x) (n - p - 1), rmiRecS (o 0) (rmiDownS p x) (n - p - 1), Ring.after x (p + 1) n⟩

theorem rmiPhases_ordered (k : R × R) : Phases.Ordered (rmiPhases k) := by phases_ordered rmiPhases

theorem rmi_stream_run (o : Nat → R) (p : Nat) (h0 : ¬ o 0 < c! 1) (h1 : ¬ o 1 < c! 1) (hc : toInt (o 1) = .ok (p : Int))
    (hr : toInt (o 1 + c! 1) = .ok ((p + 1 : Nat) : Int)) :
    (rmi (R := R)).StreamComputes o p (rmiValS o p) := by
  refine streamComputes_traj (I := rmi) (k := (o 0, o 1)) (s0 := (⟨c! 0, c! 0, Ring.after (fun _ => c! 0) (p + 1) 0⟩ : RmiS R)) ?_
    (rmiPhases_ordered _) (rmiTraj o p) (fun x => by simp only [rmiTraj, if_pos (Nat.zero_le p)]; rfl) ?_
  · simp only [rmi, rmiNew, if_neg h0, if_neg h1, rmiStart, hc, bind_ok, pure_eq, hr]
    rw [Ring.make_after (fun _ => c! 0) _ (by omega), bind_ok]
  · intro x n
    simp only [barStep, rmi, rmiPhases, List.find?]
    have hp1 := Nat.succ_pos p
    by_cases hlt : n < p
    · rw [decide_eq_true (by omega), if_pos hlt]
      simp only [rmiTraj, if_pos (show n ≤ p by omega), if_pos (show n + 1 ≤ p by omega),
        Ring.after_set x _ hp1 n (x n) rfl, bind_ok, Ring.now_step, pure_eq]
    rw [decide_eq_false (by omega), if_neg hlt]
    have hg := Ring.now_get x (p + 1) n (p : Int) p (by omega) (by omega) (by omega)
    by_cases heq : n = p
    · subst heq
      rw [decide_eq_true (by omega)]
      simp only [rmiTraj, if_pos le_rfl, if_neg (show ¬ n + 1 ≤ n by omega), hc,
        Ring.after_set x _ hp1 n (x n) rfl, bind_ok, Ring.now_step, pure_eq, hg, rmiValS, show n + 1 - n - 1 = 0 by omega,
        Nat.sub_self, rmiRecS, rmiUpS, rmiDownS, Nat.zero_add]
    · obtain ⟨k, rfl⟩ : ∃ k, n = k + 1 + p := ⟨n - 1 - p, by omega⟩
      rw [decide_eq_false (by omega)]
      rw [show k + 1 + p - p = k + 1 by omega] at hg ⊢
      simp only [rmiTraj, if_neg (show ¬ k + 1 + p ≤ p by omega), if_neg (show ¬ k + 1 + p + 1 ≤ p by omega), hc,
        Ring.after_set x _ hp1 (k + 1 + p) (x (k + 1 + p)) rfl, bind_ok, Ring.now_step, pure_eq, hg, rmiValS,
        show k + 1 + p + 1 - p - 1 = k + 1 by omega, show k + 1 + p - p - 1 = k by omega,
        rmiRecS, rmiUpS, rmiDownS]

theorem rmiRef_run (o : Nat → R) (p q : Nat) (h0 : ¬ o 0 < c! 1) (h1 : ¬ o 1 < c! 1) (hc : toInt (o 1) = .ok (p : Int))
    (hd : toInt (o 0) = .ok (q : Int)) (hq : 1 ≤ q) :
    Computes rmiRef o p (fun x j => emaRec (emaPer q) (rmiUp p x) j /
      (emaRec (emaPer q) (rmiUp p x) j + emaRec (emaPer q) (rmiDown p x) j) * c! 100) := by
  intro x N
  unfold rmiRef
  simp only [if_neg h0, if_neg h1, length_pre, pure_eq, rmiStart, hc, bind_ok]
  by_cases hN : N ≤ p
  · rw [forUp_empty (by omega), bind_ok]
    have e : emaInPlace (fun _ => o 0) ([] : List R) = .ok [] := emaInPlace_pre (o := fun _ => o 0) hd hq (fun _ => c! 0) 0
    simp only [e, bind_ok]
    rw [forUp_empty (by omega), bind_ok, show N - p = 0 by omega]
    rfl
  refine forUp_bind p N (fun i => (pre (rmiUp p x) (i - p), pre (rmiDown p x) (i - p))) rfl rfl (by simp) (by omega) ?_ ?_
  · intro i h2 h3
    obtain ⟨k, rfl⟩ : ∃ k, i = k + p := ⟨i - p, by omega⟩
    simp only []
    rw [rd_at (k + p) rfl h3, rd_at k (by omega) (by omega)]
    simp only [bind_ok]
    rw [show k + p - p = k by omega, show k + p + 1 - p = k + 1 by omega]
    exact (bind_ok' (wr_pre _ (rmiUp p x) k _ (by omega) rfl)).trans (bind_ok' (wr_pre _ (rmiDown p x) k _ (by omega) rfl))
  · simp only []
    rw [emaInPlace_pre (o := fun _ => o 0) hd hq, bind_ok, emaInPlace_pre (o := fun _ => o 0) hd hq, bind_ok]
    refine forUp_bind 0 (N - p) (fun i => pre (fun j => emaRec (emaPer q) (rmiUp p x) j /
      (emaRec (emaPer q) (rmiUp p x) j + emaRec (emaPer q) (rmiDown p x) j) * c! 100) i) rfl (by omega) rfl (by omega) ?_ rfl
    intro i _ h2
    rw [rd_at i rfl (by omega), rd_at i rfl (by omega)]
    simp only [bind_ok]
    exact wr_pre _ _ _ _ (by omega) rfl

/-! ### vwap -/

def vwapVal (p : Nat) (x : Nat → HLCV R) (j : Nat) : R :=
  vwapOut (slideD (fun k => vwapNum (x k)) p (j + p)) (slideD (fun k => (x k).volume) p (j + p))

theorem vwapStart_ok {o : Nat → R} {p : Nat} (hc : toInt (o 0) = .ok (p : Int)) (hp : 1 ≤ p) :
    vwapStart o = .ok ((p - 1 : Nat) : Int) := by
  have := toInt_range hc
  unfold vwapStart
  rw [hc, bind_ok, i32_ok _ (by omega) (by omega), show (p : Int) - 1 = ((p - 1 : Nat) : Int) by omega]

theorem slideD_add (x : Nat → R) (p i : Nat) (h : i < p) : slideD x p (i + 1) = slideD x p i + x i := by
  rw [slideD, if_pos h]
theorem slideD_move (x : Nat → R) (p i : Nat) (h : p ≤ i) : slideD x p (i + 1) = slideD x p i + (x i - x (i - p)) := by
  rw [slideD, if_neg (by omega)]

theorem vwap_run (o : Nat → R) (p : Nat) (h0 : ¬ o 0 < c! 1) (hc : toInt (o 0) = .ok (p : Int)) (hp : 1 ≤ p)
    (hq : toInt (-(o 0) + c! 1) = .ok (1 - (p : Int))) : Computes vwapBatch o (p - 1) (vwapVal p) := by
  intro x N
  unfold vwapBatch
  simp only [if_neg h0, length_pre, pure_eq, vwapStart_ok hc hp, hq, bind_ok]
  have hi : max 0 (min (N : Int) (1 - (1 - (p : Int)))) = ((min N p : Nat) : Int) := by omega
  rw [hi]
  refine forUp_bind 0 (min N p) (fun i => (slideD (fun k => vwapNum (x k)) p i, slideD (fun k => (x k).volume) p i)) rfl rfl rfl
    (by omega) ?_ ?_
  · intro i _ h2
    rw [rd_at i rfl (by omega), bind_ok]
    simp only []
    rw [slideD_add _ _ _ (by omega), slideD_add _ _ _ (by omega)]
  · simp only []
    by_cases hN : N < p
    · rw [if_neg (by omega), hc, bind_ok, forUp_empty (by omega), bind_ok, show N - (p - 1) = 0 by omega]
      rfl
    rw [show min N p = p by omega, if_pos (by omega), show wr ((N : Int) - ((p - 1 : Nat) : Int)) ([] : List R)
      (vwapOut (slideD (fun k => vwapNum (x k)) p p) (slideD (fun k => (x k).volume) p p)) = .ok (pre (vwapVal p x) 1) from
        wr_pre _ (vwapVal p x) 0 _ (by omega) (by simp only [vwapVal, Nat.zero_add]), bind_ok, hc, bind_ok]
    refine forUp_bind p N (fun i => (slideD (fun k => vwapNum (x k)) p i, slideD (fun k => (x k).volume) p i,
      pre (vwapVal p x) (i - (p - 1)))) rfl rfl ?_ (by omega) ?_ ?_
    · simp only [show p - (p - 1) = 1 by omega]
    · intro i h2 h3
      simp only []
      rw [rd_at i rfl h3, bind_ok, rd_at (i - p) (by omega) (by omega), bind_ok]
      rw [slideD_move _ _ _ h2, slideD_move _ _ _ h2, show i + 1 - (p - 1) = i - (p - 1) + 1 by omega]
      refine bind_ok' (wr_pre _ (vwapVal p x) (i - (p - 1)) _ (by omega) ?_)
      simp only [vwapVal, show i - (p - 1) + p = i + 1 by omega]
      rw [slideD_move _ _ _ h2, slideD_move _ _ _ h2]
    · rfl

/-- A ring of bars read component by component. -/
def vwapTraj (p : Nat) (x : Nat → HLCV R) (n : Nat) : VwapS R :=
  ⟨slideS (fun k => vwapNum (x k)) p n, slideS (fun k => (x k).volume) p n,
   Ring.after (fun k => (x k).high) (p + 1) n, Ring.after (fun k => (x k).low) (p + 1) n,
   Ring.after (fun k => (x k).close) (p + 1) n, Ring.after (fun k => (x k).volume) (p + 1) n⟩

def vwapValS (p : Nat) (x : Nat → HLCV R) (j : Nat) : R :=
  vwapOut (slideS (fun k => vwapNum (x k)) p (j + (p - 1)) + vwapNum (x (j + (p - 1))))
    (slideS (fun k => (x k).volume) p (j + (p - 1)) + (x (j + (p - 1))).volume)

theorem vwapPhases_ordered (k : Int) : Phases.Ordered (vwapPhases (R := R) k) := by phases_ordered vwapPhases

theorem vwap_stream_run (o : Nat → R) (p : Nat) (h0 : ¬ o 0 < c! 1) (hc : toInt (o 0) = .ok (p : Int)) (hp : 1 ≤ p)
    (hr : toInt (o 0 + c! 1) = .ok ((p + 1 : Nat) : Int)) :
    (vwap (R := R)).StreamComputes o (p - 1) (vwapValS p) := by
  refine streamComputes_traj (I := vwap) (k := (p : Int)) (s0 := vwapTraj p (fun _ => ⟨c! 0, c! 0, c! 0, c! 0⟩) 0) ?_
    (vwapPhases_ordered _) (vwapTraj p) (fun x => rfl) ?_
  · simp only [vwap, vwapNew, if_neg h0, vwapStart_ok hc hp, hc, bind_ok, pure_eq, hr]
    rw [Ring.make_after (fun _ => (c! 0 : R)) _ (by omega)]
    rfl
  · intro x n
    simp only [barStep, vwap, vwapPhases, List.find?]
    have hp1 := Nat.succ_pos p
    have s1 := Ring.after_set (fun k => (x k).high) _ hp1 n (x n).high rfl
    have s2 := Ring.after_set (fun k => (x k).low) _ hp1 n (x n).low rfl
    have s3 := Ring.after_set (fun k => (x k).close) _ hp1 n (x n).close rfl
    have s4 := Ring.after_set (fun k => (x k).volume) _ hp1 n (x n).volume rfl
    by_cases hlt : n < p - 1
    · rw [decide_eq_true (by omega), if_pos hlt]
      simp only [vwapTraj, s1, s2, s3, s4, bind_ok, Ring.now_step, pure_eq, slideS, if_pos hlt]
    · rw [decide_eq_false (by omega), if_neg hlt]
      have g1 := Ring.now_get (fun k => (x k).high) (p + 1) n ((p : Int) - 1) (p - 1) (by omega) (by omega) (by omega)
      have g2 := Ring.now_get (fun k => (x k).low) (p + 1) n ((p : Int) - 1) (p - 1) (by omega) (by omega) (by omega)
      have g3 := Ring.now_get (fun k => (x k).close) (p + 1) n ((p : Int) - 1) (p - 1) (by omega) (by omega) (by omega)
      have g4 := Ring.now_get (fun k => (x k).volume) (p + 1) n ((p : Int) - 1) (p - 1) (by omega) (by omega) (by omega)
      simp only [vwapTraj, s1, s2, s3, s4, g1, g2, g3, g4, bind_ok, Ring.now_step, pure_eq, slideS, if_neg hlt]
      simp only [vwapValS, show n - (p - 1) + (p - 1) = n by omega]

/-! ### evwma -/

theorem evwmaStart_ok {o : Nat → R} {p : Nat} (hc : toInt (o 0) = .ok (p : Int)) (hp : 1 ≤ p) :
    evwmaStart o = .ok ((p - 1 : Nat) : Int) := vwapStart_ok hc hp

def evwmaRec (p : Nat) (gamma : R) (x : Nat → CV R) : Nat → R
  | 0 => (x (p - 1)).close
  | j + 1 => evwmaNext gamma (evwmaRec p gamma x j) (slideD (fun k => (x k).volume) p (j + 1 + p)) (x (j + p))

def evwmaTraj (p : Nat) (gamma : R) (x : Nat → CV R) (n : Nat) : Option R × R :=
  (if n < p then none else some (evwmaRec p gamma x (n - p)), slideD (fun k => (x k).volume) p n)

theorem evwmaLoops_ordered (p : Int) (g : R) (xs : List (CV R)) : Phases.Ordered (evwmaLoops p g xs) := by
  phases_ordered evwmaLoops
theorem evwmaPhases_ordered (k : Int × R) : Phases.Ordered (evwmaPhases k) := by phases_ordered evwmaPhases

theorem evwma_run (o : Nat → R) (p : Nat) (hc : toInt (o 0) = .ok (p : Int)) (hp : 1 ≤ p) (hg : ¬ o 1 ≤ c! 0) :
    Computes evwmaBatch o (p - 1) (evwmaRec p (o 1)) := by
  refine computes_of_loop2 (phs := fun xs => evwmaLoops p (o 1) xs) (p0 := 0) (s0 := (none, c! 0)) ?_
    (fun xs => (evwmaLoops_ordered _ _ _).from _) (evwmaTraj p (o 1))
    (fun x => by simp only [evwmaTraj, if_pos (show 0 < p from hp), slideD]) ?_
  · intro xs
    simp only [evwmaBatch, hc, bind_ok, if_neg (show ¬ (p : Int) < 1 by omega), if_neg hg, evwmaStart_ok hc hp]
  · intro x N n hn
    simp only [barStep, evwmaLoops, List.find?]
    by_cases h1 : n < p - 1
    · rw [decide_eq_true (by omega), if_pos h1]
      simp only [evwmaTraj, if_pos (show n < p by omega), if_pos (show n + 1 < p by omega), slideD_add _ p n (by omega)]
      rfl
    rw [decide_eq_false (by omega), if_neg h1]
    by_cases h2 : n < p
    · obtain rfl : n = p - 1 := by omega
      rw [decide_eq_true (by omega)]
      simp only [evwmaTraj, if_neg (show ¬ p - 1 + 1 < p by omega), slideD_add _ p (p - 1) (by omega),
        show p - 1 + 1 - p = 0 by omega, Nat.sub_self, evwmaRec]
      rfl
    · obtain ⟨j, rfl⟩ : ∃ j, n = j + p := ⟨n - p, by omega⟩
      rw [decide_eq_false (by omega)]
      simp only [evwmaTraj, if_neg h2, if_neg (show ¬ j + p + 1 < p by omega)]
      rw [rd_at j (by omega) (by omega), bind_ok, slideD_move _ p (j + p) (by omega),
        show j + p - (p - 1) = j + 1 by omega, show j + p + 1 - p = j + 1 by omega, show j + p - p = j by omega]
      simp only [evwmaRec, evwmaNext, getV, bind_ok, pure_eq]
      rw [show j + 1 + p = j + p + 1 by omega, slideD_move _ p (j + p) (by omega), show j + p - p = j by omega]
      split <;> rfl

def evwmaTrajS (p : Nat) (gamma : R) (x : Nat → CV R) (n : Nat) : EvwmaS R :=
  ⟨if n < p then c! 0 else evwmaRec p gamma x (n - p), slideD (fun k => (x k).volume) p n,
   Ring.after (fun k => (x k).volume) (p + 1) n⟩

theorem evwma_stream_run (o : Nat → R) (p : Nat) (hc : toInt (o 0) = .ok (p : Int)) (hp : 1 ≤ p) (hb : p < 2147483647)
    (hg : ¬ o 1 ≤ c! 0) : (evwma (R := R)).StreamComputes o (p - 1) (evwmaRec p (o 1)) := by
  refine streamComputes_traj (I := evwma) (k := ((p : Int), o 1))
    (s0 := (⟨c! 0, c! 0, Ring.after (fun _ => c! 0) (p + 1) 0⟩ : EvwmaS R)) ?_
    (evwmaPhases_ordered _) (evwmaTrajS p (o 1)) (fun x => by simp only [evwmaTrajS, if_pos (show 0 < p from hp), slideD]; rfl) ?_
  · simp only [evwma, evwmaNew, hc, bind_ok, if_neg (show ¬ (p : Int) < 1 by omega), if_neg hg, evwmaStart_ok hc hp, pure_eq]
    rw [i32_ok _ (by omega) (by omega), bind_ok, show (p : Int) + 1 = ((p + 1 : Nat) : Int) by omega,
      Ring.make_after (fun _ => c! 0) _ (by omega), bind_ok]
  · intro x n
    simp only [barStep, evwma, evwmaPhases, List.find?]
    have hp1 := Nat.succ_pos p
    have s4 := Ring.after_set (fun k => (x k).volume) _ hp1 n (x n).volume rfl
    by_cases h1 : n < p - 1
    · rw [decide_eq_true (by omega), if_pos h1]
      simp only [evwmaTrajS, s4, bind_ok, Ring.now_step, pure_eq, if_pos (show n < p by omega),
        if_pos (show n + 1 < p by omega), slideD_add _ p n (by omega)]
    rw [decide_eq_false (by omega), if_neg h1]
    by_cases h2 : n < p
    · obtain rfl : n = p - 1 := by omega
      rw [decide_eq_true (by omega)]
      simp only [evwmaTrajS, s4, bind_ok, Ring.now_step, pure_eq, if_neg (show ¬ p - 1 + 1 < p by omega),
        slideD_add _ p (p - 1) (by omega), show p - 1 + 1 - p = 0 by omega, Nat.sub_self, evwmaRec]
    · obtain ⟨j, rfl⟩ : ∃ j, n = j + p := ⟨n - p, by omega⟩
      rw [decide_eq_false (by omega)]
      have g := Ring.now_get (fun k => (x k).volume) (p + 1) (j + p) (p : Int) p (by omega) (by omega) (by omega)
      simp only [evwmaTrajS, s4, g, Ring.now_cur (fun k => (x k).volume) _ hp1, bind_ok, Ring.now_step, pure_eq, if_neg h2,
        if_neg (show ¬ j + p + 1 < p by omega), slideD_move (fun k => (x k).volume) p (j + p) (by omega),
        show j + p - (p - 1) = j + 1 by omega, show j + p + 1 - p = j + 1 by omega, show j + p - p = j by omega, evwmaRec,
        show j + 1 + p = j + p + 1 by omega]

/-! ### vi -/

def viTermAt (x : Nat → HLC R) (k : Nat) : ViT R := viTerm (x (k + 1)) (x k)

/-- The three running sums after `n` terms. -/
def viSum (p : Nat) (x : Nat → HLC R) : Nat → ViT R
  | 0 => ⟨c! 0, c! 0, c! 0⟩
  | n + 1 => if n < p then (viSum p x n).add (viTermAt x n)
    else ((viSum p x n).sub (viTermAt x (n - p))).add (viTermAt x n)

def viVal (p : Nat) (x : Nat → HLC R) (j : Nat) : ViOut R := viOut (viSum p x (j + p))

theorem vi_body (p : Nat) (hp : 1 ≤ p) (out : ViT R → ViOut R) (x : Nat → HLC R) (N : Nat) (hN : p < N) :
    (do
      let s ← forUp 1 ((p : Int) + 1) (⟨c! 0, c! 0, c! 0⟩ : ViT R) fun k s => do
        return s.add (viTerm (← rd (pre x N) k) (← rd (pre x N) (k - 1)))
      let o' ← wr ((N : Int) - p) [] (out s)
      let t ← forUp ((p : Int) + 1) N (s, o') fun i t => do
        let old := viTerm (← rd (pre x N) (i - p)) (← rd (pre x N) (i - p - 1))
        let new := viTerm (← rd (pre x N) i) (← rd (pre x N) (i - 1))
        let s := (t.1.sub old).add new
        let o' ← wr ((N : Int) - p) t.2 (out s)
        return (s, o')
      return (Ret.okay, t.2) : M (Ret × List (ViOut R))) =
    .ok (.okay, pre (fun j => out (viSum p x (j + p))) (N - p)) := by
  simp only [pure_eq]
  refine forUp_bind 1 (p + 1) (fun i => viSum p x (i - 1)) rfl (by omega) rfl (by omega) ?_ ?_
  · intro i h1 h2
    obtain ⟨k, rfl⟩ : ∃ k, i = k + 1 := ⟨i - 1, by omega⟩
    rw [rd_at (k + 1) rfl (by omega), bind_ok, rd_at k (by omega) (by omega), bind_ok]
    simp only [Nat.add_sub_cancel, viSum, if_pos (show k < p by omega)]
    rfl
  · rw [show p + 1 - 1 = p by omega, show wr ((N : Int) - p) ([] : List (ViOut R)) (out (viSum p x p)) =
      .ok (pre (fun j => out (viSum p x (j + p))) 1) from
        wr_pre _ (fun j => out (viSum p x (j + p))) 0 _ (by omega) (by simp only [Nat.zero_add]), bind_ok]
    refine forUp_bind (p + 1) N (fun i => (viSum p x (i - 1), pre (fun j => out (viSum p x (j + p))) (i - p)))
      (by omega) rfl ?_ (by omega) ?_ rfl
    · simp only [show p + 1 - 1 = p by omega, show p + 1 - p = 1 by omega]
    · intro i h1 h2
      obtain ⟨k, rfl⟩ : ∃ k, i = k + p + 1 := ⟨i - p - 1, by omega⟩
      simp only []
      rw [rd_at (k + 1) (by omega) (by omega), bind_ok, rd_at k (by omega) (by omega), bind_ok,
        rd_at (k + p + 1) rfl (by omega), bind_ok, rd_at (k + p) (by omega) (by omega), bind_ok]
      have e : viSum p x (k + p + 1) = ((viSum p x (k + p)).sub (viTerm (x (k + 1)) (x k))).add
          (viTerm (x (k + p + 1)) (x (k + p))) := by
        rw [viSum, if_neg (by omega), show k + p - p = k by omega]; rfl
      simp only [Nat.add_sub_cancel, show k + p + 1 - p = k + 1 by omega, show k + p + 1 + 1 - p = k + 1 + 1 by omega]
      rw [← e]
      exact bind_ok' (wr_pre _ (fun j => out (viSum p x (j + p))) (k + 1) _ (by omega) (by
        simp only [show k + 1 + p = k + p + 1 by omega]))

theorem vi_run (o : Nat → R) (p : Nat) (hc : toInt (o 0) = .ok (p : Int)) (hp : 1 ≤ p) (x : Nat → HLC R) (N : Nat)
    (hN : p < N) : viBatch o (pre x N) = .ok (.okay, pre (viVal p x) (N - p)) := by
  unfold viBatch
  simp only [hc, bind_ok, length_pre, viStart]
  rw [if_neg (by omega)]
  exact vi_body p hp viOut x N hN

theorem viRef_run (o : Nat → R) (p : Nat) (hc : toInt (o 0) = .ok (p : Int)) (hp : 1 ≤ p) (x : Nat → HLC R) (N : Nat)
    (hN : p < N) : viRef o (pre x N) =
      .ok (.okay, pre (fun j => (⟨(viSum p x (j + p)).p / (viSum p x (j + p)).t, (viSum p x (j + p)).m / (viSum p x (j + p)).t⟩ : ViOut R)) (N - p)) := by
  unfold viRef
  simp only [hc, bind_ok, length_pre, viStart]
  rw [if_neg (by omega)]
  exact vi_body p hp (fun s => ⟨s.p / s.t, s.m / s.t⟩) x N hN

theorem seg_snoc {α : Type} (x : Nat → α) (a n : Nat) : seg x a (n + 1) = seg x a n ++ [x (a + n)] := by
  simp [seg, List.range_succ]

/-- Integers up to `p + 1` compare with the option as with its integer part. -/
def CmpInt (v : R) (p : Nat) : Prop :=
  ∀ k : Nat, k ≤ p + 1 → ((((k : Int) : R) ≤ v ↔ k ≤ p) ∧ (v < ((k : Int) : R) ↔ p < k))

def viTraj (p : Nat) (x : Nat → HLC R) (n : Nat) : ViS R :=
  ⟨viSum p x (n - 1), seg x (n - (p + 1)) (min n (p + 1))⟩

theorem vi_stream_run (o : Nat → R) (p : Nat) (hc : toInt (o 0) = .ok (p : Int)) (hp : 1 ≤ p) (h0 : ¬ o 0 < c! 1)
    (hcmp : CmpInt (o 0) p) : (vi (R := R)).StreamComputes o p (viVal p) := by
  refine streamComputes_traj' (I := vi) (k := (o 0 : R)) (s0 := (⟨⟨c! 0, c! 0, c! 0⟩, []⟩ : ViS R)) ?_
    ((single_ordered _).from _) (viTraj p) (fun x => by simp only [viTraj, Nat.zero_min]; rfl) ?_
  · simp only [vi, viNew, if_neg h0, viStart, hc, bind_ok, pure_eq]
  · intro x n
    simp only [barStep, vi, viPhases, List.find?]
    by_cases hn : n ≤ p
    · have hs : seg x (n - (p + 1)) (min n (p + 1)) = pre x n := by
        rw [show n - (p + 1) = 0 by omega, show min n (p + 1) = n by omega, seg_zero_eq_pre]
      have hs' : seg x (n + 1 - (p + 1)) (min (n + 1) (p + 1)) = pre x n ++ [x n] := by
        rw [show n + 1 - (p + 1) = 0 by omega, show min (n + 1) (p + 1) = n + 1 by omega, seg_zero_eq_pre, pre_succ]
      have hl : (pre x n ++ [x n]).length = n + 1 := by simp
      simp only [viTraj, hs, hs', length_pre, hl]
      rw [if_pos (((hcmp n (by omega)).1).2 hn)]
      have hsum : viGrow (viSum p x (n - 1)) (pre x n).getLast? (x n) = viSum p x (n + 1 - 1) := by
        match n with
        | 0 => rfl
        | k + 1 =>
          rw [pre_succ, List.getLast?_concat]
          simp only [Nat.add_sub_cancel, viSum, if_pos (show k < p by omega)]
          rfl
      rw [hsum]
      by_cases hlt : n < p
      · rw [if_pos hlt, if_neg (fun h => by have := ((hcmp (n + 1) (by omega)).2).1 h; omega)]; rfl
      · obtain rfl : n = p := by omega
        rw [if_neg hlt, if_pos (((hcmp (n + 1) (by omega)).2).2 (by omega))]
        simp only [viVal, Nat.sub_self, Nat.zero_add, Nat.add_sub_cancel]
        rfl
    · obtain ⟨m, rfl⟩ : ∃ m, n = m + p + 1 := ⟨n - p - 1, by omega⟩
      obtain ⟨q, rfl⟩ : ∃ q, p = q + 1 := ⟨p - 1, by omega⟩
      have hs : seg x (m + (q + 1) + 1 - (q + 1 + 1)) (min (m + (q + 1) + 1) (q + 1 + 1)) = x m :: x (m + 1) :: seg x (m + 2) q := by
        rw [show m + (q + 1) + 1 - (q + 1 + 1) = m by omega, show min (m + (q + 1) + 1) (q + 1 + 1) = q + 1 + 1 by omega, seg_succ, seg_succ]
      have hs' : seg x (m + (q + 1) + 1 + 1 - (q + 1 + 1)) (min (m + (q + 1) + 1 + 1) (q + 1 + 1)) =
          x (m + 1) :: seg x (m + 2) q ++ [x (m + (q + 1) + 1)] := by
        rw [show m + (q + 1) + 1 + 1 - (q + 1 + 1) = m + 1 by omega, show min (m + (q + 1) + 1 + 1) (q + 1 + 1) = q + 1 + 1 by omega,
          seg_snoc, seg_succ, show m + 1 + (q + 1) = m + (q + 1) + 1 by omega]
      have hl : (x (m + 1) :: seg x (m + 2) q).getLast? = some (x (m + (q + 1))) := by
        rw [← seg_succ, seg_snoc, List.getLast?_concat, show m + 1 + q = m + (q + 1) by omega]
      simp only [viTraj, hs, hs', List.length_cons, length_seg]
      rw [if_neg (fun h => by have := ((hcmp (q + 1 + 1) (by omega)).1).1 h; omega)]
      simp only [hl, getV, bind_ok, pure_eq]
      rw [if_neg (by omega)]
      have e : viSum (q + 1) x (m + (q + 1) + 1) = ((viSum (q + 1) x (m + (q + 1))).sub (viTerm (x (m + 1)) (x m))).add
          (viTerm (x (m + (q + 1) + 1)) (x (m + (q + 1)))) := by
        rw [viSum, if_neg (by omega), show m + (q + 1) - (q + 1) = m by omega]; rfl
      simp only [Nat.add_sub_cancel, viVal, show m + (q + 1) + 1 - (q + 1) = m + 1 by omega]
      rw [show m + 1 + (q + 1) = m + (q + 1) + 1 by omega, e]

/-- The reference of vi agrees with the batch call where neither movement is zero. -/
theorem viRef_eq_batch (o : Nat → R) (p : Nat) (hc : toInt (o 0) = .ok (p : Int)) (hp : 1 ≤ p) (x : Nat → HLC R)
    (N : Nat) (h : ∀ j, ((viSum p x (j + p)).p == c! 0) = false ∧ ((viSum p x (j + p)).m == c! 0) = false) :
    viRef o (pre x N) = viBatch o (pre x N) := by
  by_cases hN : N ≤ p
  · simp [viRef, viBatch, hc, hN]
  · rw [viRef_run o p hc hp x N (by omega), vi_run o p hc hp x N (by omega)]
    congr 3
    funext j
    simp [viVal, viOut, h j]

end Verif
