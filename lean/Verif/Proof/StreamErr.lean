/- Streams that reach undefined behaviour (helper lemma). -/
import Verif.Proof.Traj

namespace Verif
variable {R ρ ω : Type}

theorem barFold_err {σ : Type} (phs : List (Phase ρ σ ω)) (x : Nat → ρ) (p : Int) (T : Nat → σ) (w : Nat → List ω) (e : UB) (m : Nat)
    (step : ∀ n, n < m → barStep phs (p + n) (x n) (T n) = .ok (T (n + 1), w n))
    (herr : barStep phs (p + m) (x m) (T m) = .error e) :
    ∀ d k : Nat, k + d = m → ∀ L, d < L → barFold phs (seg x k L) (p + k) (T k) = .error e := by
  intro d
  induction d with
  | zero =>
    intro k hk L hL
    obtain ⟨L, rfl⟩ : ∃ l, L = l + 1 := ⟨L - 1, by omega⟩
    obtain rfl : k = m := by omega
    rw [seg_succ]
    simp only [barFold, herr]
  | succ d ih =>
    intro k hk L hL
    obtain ⟨L, rfl⟩ : ∃ l, L = l + 1 := ⟨L - 1, by omega⟩
    rw [seg_succ]
    have := ih (k + 1) (by omega) L (by omega)
    rw [show p + ((k + 1 : Nat) : Int) = p + k + 1 by omega] at this
    simp only [barFold, step k (by omega), this]

/-- A stream that runs without trouble for `m` bars and then hits undefined behaviour. -/
theorem session_err {I : Indicator R ρ ω} {o : Nat → R} {k : I.κ} {p : Int} {s0 : I.σ} (hnew : I.new o = .ok (.made k p s0))
    (hord : Phases.Ordered (I.phases k)) (x : Nat → ρ) (T : Nat → I.σ) (w : Nat → List ω) (e : UB) (m : Nat) (h0 : s0 = T 0)
    (step : ∀ n, n < m → barStep (I.phases k) (p + n) (x n) (T n) = .ok (T (n + 1), w n))
    (herr : barStep (I.phases k) (p + m) (x m) (T m) = .error e)
    (N : Nat) (chunks : List (List ρ)) (hx : chunks.flatten = pre x N) (hm : m < N) : I.session o chunks = .error e := by
  unfold Indicator.session
  rw [hnew]
  simp only [runs_eq_barFold I k hord, hx]
  have := barFold_err (I.phases k) x p T w e m step herr m 0 (by omega) N hm
  rw [seg_zero_eq_pre, show p + ((0 : Nat) : Int) = p by omega, ← h0] at this
  rw [this]

end Verif
