/- Consequences of `Computes` / `StreamComputes` (helper lemmas). -/
import Verif.Spec.Contract
import Verif.Core.StreamLemmas

namespace Verif
variable {R ρ ω : Type}

theorem Computes.safe [Inhabited ρ] {batch : (Nat → R) → List ρ → M (Ret × List ω)} {o : Nat → R}
    {start : Nat} {val : (Nat → ρ) → Nat → ω} (h : Computes batch o start val) : Safe batch o start := by
  intro xs
  obtain ⟨x, hx⟩ := exists_pre xs
  refine ⟨_, by rw [hx]; exact h x _, by simp⟩

theorem Computes.causal [Inhabited ρ] {batch : (Nat → R) → List ρ → M (Ret × List ω)} {o : Nat → R}
    {start : Nat} {val : (Nat → ρ) → Nat → ω} (h : Computes batch o start val) : Causal batch o := by
  intro xs ys out hout
  obtain ⟨x, hx⟩ := exists_pre (xs ++ ys)
  have hxs : xs = pre x xs.length := by
    have := congrArg (List.take xs.length) hx
    simp only [List.take_left'] at this
    rw [this]
    simp [pre, ← List.map_take, List.take_range]
  rw [hxs, h x] at hout
  simp only [Except.ok.injEq, Prod.mk.injEq, true_and] at hout
  refine ⟨seg (val x) (xs.length - start) ((xs ++ ys).length - start - (xs.length - start)), ?_⟩
  rw [hx, h x, ← hout, ← pre_add]
  congr 3
  simp; omega

theorem Computes.contract [Inhabited ρ] {batch : (Nat → R) → List ρ → M (Ret × List ω)} {o : Nat → R}
    {start : Nat} {val : (Nat → ρ) → Nat → ω} {startF : (Nat → R) → M Int} (h : Computes batch o start val)
    (hs : startF o = .ok (start : Int)) : Contract startF batch o start := ⟨hs, h.safe, h.causal⟩

theorem Computes.congr {batch : (Nat → R) → List ρ → M (Ret × List ω)} {o : Nat → R} {start : Nat}
    {val val' : (Nat → ρ) → Nat → ω} (h : Computes batch o start val) (e : ∀ x j, val x j = val' x j) :
    Computes batch o start val' := by
  have : val = val' := by funext x j; exact e x j
  rwa [← this]

theorem StreamComputes.congr {I : Indicator R ρ ω} {o : Nat → R} {start : Nat}
    {val val' : (Nat → ρ) → Nat → ω} (h : I.StreamComputes o start val) (e : ∀ x j, val x j = val' x j) :
    I.StreamComputes o start val' := by
  have : val = val' := by funext x j; exact e x j
  rwa [← this]

theorem streamEqBatch_of [Inhabited ρ] {I : Indicator R ρ ω} {o : Nat → R} {start : Nat}
    {val : (Nat → ρ) → Nat → ω} (hb : Computes I.batch o start val)
    (hs : I.StreamComputes o start val) : I.StreamEqBatch o start := by
  intro chunks
  obtain ⟨x, hx⟩ := exists_pre chunks.flatten
  refine ⟨_, by rw [hx]; exact hb x _, ?_⟩
  exact hs x _ chunks hx

theorem chunkInvariant_of' {I : Indicator R ρ ω} {o : Nat → R}
    (h : ∀ k p s, I.new o = .ok (.made k p s) → Phases.OrderedFrom p (I.phases k)) : I.ChunkInvariant o := by
  intro chunks
  unfold Indicator.session
  cases hn : I.new o with
  | error e => rfl
  | ok r =>
    cases r with
    | fail r => rfl
    | made k p s => simp only [runs_eq_barFold' I k (h k p s hn) _ _ _ le_rfl]; simp

theorem chunkInvariant_of {I : Indicator R ρ ω} (h : ∀ k, Phases.Ordered (I.phases k)) (o : Nat → R) :
    I.ChunkInvariant o := chunkInvariant_of' fun k p _ _ => (h k).from p

/-- The outputs of a stream that stays silent for `start` bars and then writes one value per bar. -/
theorem flatten_emit (start N : Nat) (f : Nat → ω) :
    (pre (fun n => if n < start then [] else [f n]) N).flatten
      = pre (fun j => f (j + start)) (N - start) := by
  induction N with
  | zero => simp
  | succ N ih =>
    rw [pre_succ, List.flatten_append, ih]
    by_cases h : N < start
    · simp [h, show N + 1 - start = N - start by omega]
    · rw [show N + 1 - start = (N - start) + 1 by omega, pre_succ]
      simp [h, show N - start + start = N by omega]

/-- Main rule for streams: a simulation, one bar at a time. -/
theorem streamComputes_of' {I : Indicator R ρ ω} {o : Nat → R} {k : I.κ} {start : Nat} {s0 : I.σ}
    {val : (Nat → ρ) → Nat → ω}
    (hnew : I.new o = .ok (.made k (-(start : Int)) s0))
    (hord : Phases.OrderedFrom (-(start : Int)) (I.phases k))
    (Inv : (Nat → ρ) → Nat → I.σ → Prop)
    (h0 : ∀ x, Inv x 0 s0)
    (step : ∀ x n s, Inv x n s → ∃ s',
      barStep (I.phases k) (-(start : Int) + n) (x n) s =
        .ok (s', if n < start then [] else [val x (n - start)]) ∧ Inv x (n + 1) s') :
    I.StreamComputes o start val := by
  intro x N chunks hch
  unfold Indicator.session
  rw [hnew]
  simp only [runs_eq_barFold' I k hord _ _ _ le_rfl, hch]
  obtain ⟨s', hs', _⟩ := barFold_spec (phs := I.phases k) x (-(start : Int))
    (fun n => if n < start then [] else [val x (n - start)]) (Inv x) N
    (fun n s _ h => step x n s h) N 0 s0 (by omega) (h0 x)
  rw [seg_zero_eq_pre, seg_zero_eq_pre, flatten_emit start N (fun n => val x (n - start))] at hs'
  simp only [Nat.cast_zero, Int.add_zero, Nat.zero_add] at hs'
  rw [hs']
  simp only [Except.ok.injEq, Prod.mk.injEq, true_and]
  refine ⟨by omega, ?_⟩
  simp

theorem streamComputes_of {I : Indicator R ρ ω} {o : Nat → R} {k : I.κ} {start : Nat} {s0 : I.σ}
    {val : (Nat → ρ) → Nat → ω}
    (hnew : I.new o = .ok (.made k (-(start : Int)) s0))
    (hord : Phases.Ordered (I.phases k))
    (Inv : (Nat → ρ) → Nat → I.σ → Prop)
    (h0 : ∀ x, Inv x 0 s0)
    (step : ∀ x n s, Inv x n s → ∃ s',
      barStep (I.phases k) (-(start : Int) + n) (x n) s =
        .ok (s', if n < start then [] else [val x (n - start)]) ∧ Inv x (n + 1) s') :
    I.StreamComputes o start val := streamComputes_of' hnew (hord.from _) Inv h0 step

end Verif
