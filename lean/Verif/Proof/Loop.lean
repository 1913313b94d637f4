/- Batch functions that are sequences of loops (helper lemmas). -/
import Verif.Core.LoopBatch
import Verif.Proof.Traj

namespace Verif
variable {R ρ σ ω : Type}

theorem loopBatch_run {phs : List (Phase ρ σ ω)} {p0 : Int} {s0 : σ} (x : Nat → ρ) (N start : Nat) (cap : Int)
    (hcap : cap = (N : Int) - start) (hord : Phases.OrderedFrom p0 phs) (T : Nat → σ) (h0 : s0 = T 0) (val : Nat → ω)
    (step : ∀ n, n < N → barStep phs (p0 + n) (x n) (T n) =
        .ok (T (n + 1), if n < start then [] else [val (n - start)])) :
    loopBatch cap phs p0 s0 (pre x N) = .ok (.okay, pre val (N - start)) := by
  unfold loopBatch
  rw [runPhases_eq_barFold' hord _ _ le_rfl]
  obtain ⟨s', hs', _⟩ := barFold_spec (phs := phs) x p0 (fun n => if n < start then [] else [val (n - start)])
    (fun n s => s = T n) N (fun n s hn h => ⟨_, by rw [h]; exact step n hn, rfl⟩) N 0 s0 (by omega) h0
  rw [seg_zero_eq_pre, seg_zero_eq_pre, flatten_emit start N (fun n => val (n - start))] at hs'
  simp only [Nat.cast_zero, Int.add_zero, Nat.zero_add] at hs'
  rw [hs']
  simp only [Nat.add_sub_cancel]
  rw [if_pos (by simp; omega)]

/-- Batch and stream from one simulation when both run the same loops. -/
theorem computes_of_loop {batch : (Nat → R) → List ρ → M (Ret × List ω)} {o : Nat → R} {phs : List (Phase ρ σ ω)}
    {p0 : Int} {s0 : σ} {start : Nat} {val : (Nat → ρ) → Nat → ω}
    (hb : ∀ xs : List ρ, batch o xs = loopBatch ((xs.length : Int) - start) phs p0 s0 xs)
    (hord : Phases.OrderedFrom p0 phs) (T : (Nat → ρ) → Nat → σ) (h0 : ∀ x, s0 = T x 0)
    (step : ∀ (x : Nat → ρ) (n : Nat), barStep phs (p0 + n) (x n) (T x n) =
        .ok (T x (n + 1), if n < start then [] else [val x (n - start)])) :
    Computes batch o start val := by
  intro x N
  rw [hb]
  exact loopBatch_run x N start _ (by simp) hord (T x) (h0 x) (val x) (fun n _ => step x n)

/-- The same for loops whose bodies look at earlier bars of the input itself. -/
theorem computes_of_loop2 {batch : (Nat → R) → List ρ → M (Ret × List ω)} {o : Nat → R}
    {phs : List ρ → List (Phase ρ σ ω)} {p0 : Int} {s0 : σ} {start : Nat} {val : (Nat → ρ) → Nat → ω}
    (hb : ∀ xs : List ρ, batch o xs = loopBatch ((xs.length : Int) - start) (phs xs) p0 s0 xs)
    (hord : ∀ xs, Phases.OrderedFrom p0 (phs xs)) (T : (Nat → ρ) → Nat → σ) (h0 : ∀ x, s0 = T x 0)
    (step : ∀ (x : Nat → ρ) (N n : Nat), n < N → barStep (phs (pre x N)) (p0 + n) (x n) (T x n) =
        .ok (T x (n + 1), if n < start then [] else [val x (n - start)])) :
    Computes batch o start val := by
  intro x N
  rw [hb]
  exact loopBatch_run x N start _ (by simp) (hord _) (T x) (h0 x) (val x) (fun n hn => step x N n hn)

/-- The state of a total step function after `n` bars. -/
def foldF (f : σ → ρ → σ) (s0 : σ) (x : Nat → ρ) : Nat → σ
  | 0 => s0
  | n + 1 => f (foldF f s0 x n) (x n)

end Verif
