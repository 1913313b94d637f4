/- Ring buffers and streams along an explicit trajectory (helper lemmas). -/
import Verif.Core.Exact
import Verif.Proof.Ring
import Verif.Proof.Contract

set_option linter.unusedVariables false
set_option linter.unusedSimpArgs false

namespace Verif
namespace Ring
variable {R : Type} [Num R]

/-- The ring after `n` bars storing `h 0, h 1, …`, as a function (so that loop states can be written down). -/
def after (h : Nat → R) (m : Nat) : Nat → Ring R
  | 0 => ⟨List.replicate m (c! 0), 0⟩
  | n + 1 => ({ after h m n with buf := (after h m n).buf.set (after h m n).pos (h n) } : Ring R).step

/-- The ring during bar `n`, after the assignment. -/
def now (h : Nat → R) (m n : Nat) : Ring R := { after h m n with buf := (after h m n).buf.set (after h m n).pos (h n) }

theorem now_step (h : Nat → R) (m n : Nat) : (now h m n).step = after h m (n + 1) := rfl

theorem after_holds (h : Nat → R) (m : Nat) (hm : 0 < m) (n : Nat) : Holds (after h m n) m n h := by
  induction n with
  | zero =>
    obtain ⟨r, hr, H⟩ := make_ok (R := R) m hm
    have : r = after h m 0 := by
      have := hr
      simp only [make, Nat.cast_pos, hm, if_true, Except.ok.injEq, Int.toNat_natCast] at this
      rw [← this]; rfl
    rw [← this]; exact H h
  | succ n ih =>
    obtain ⟨r, hr, H⟩ := set_ok ih (h n) rfl
    have : r = now h m n := by
      simp only [set, ih.len, ih.pos, if_true, Except.ok.injEq] at hr
      rw [← hr]; rfl
    rw [← now_step, ← this]
    exact step_ok H

theorem make_after (h : Nat → R) (m : Nat) (hm : 0 < m) : make (m : Int) = .ok (after h m 0) := by
  simp [make, hm, after]

theorem after_set (h : Nat → R) (m : Nat) (hm : 0 < m) (n : Nat) (v : R) (hv : v = h n) :
    (after h m n).set v = .ok (now h m n) := by
  subst hv
  have H := after_holds h m hm n
  simp [set, H.len, H.pos, now]

theorem now_now (h : Nat → R) (m : Nat) (hm : 0 < m) (n : Nat) : Now (now h m n) m n h := by
  obtain ⟨r, hr, H⟩ := set_ok (after_holds h m hm n) (h n) rfl
  rw [after_set h m hm n _ rfl] at hr
  cases hr; exact H

theorem now_cur (h : Nat → R) (m : Nat) (hm : 0 < m) (n : Nat) : (now h m n).cur = .ok (h n) := cur_ok (now_now h m hm n)

theorem now_get (h : Nat → R) (m n : Nat) (i : Int) (k : Nat) (hi : i = (k : Int)) (h1 : k < m) (h2 : k ≤ n) :
    (now h m n).get i = .ok (h (n - k)) := by
  subst hi; exact get_ok_hist (now_now h m (by omega) n) k h1 h2

theorem now_get_any (h : Nat → R) (m n : Nat) (i : Int) (k : Nat) (hi : i = (k : Int)) (h1 : k < m) :
    (now h m n).get i = .ok (if k ≤ n then h (n - k) else c! 0) := by
  subst hi
  rw [get_ok (now_now h m (by omega) n) k (by omega) (by omega)]
  simp

/-- Out-of-range subscripts trip the assertion. -/
theorem now_get_err (h : Nat → R) (m : Nat) (hm : 0 < m) (n : Nat) (i : Int) (hi : i < 0 ∨ (m : Int) ≤ i) :
    (now h m n).get i = .error .assertFail := by
  unfold get
  rw [if_neg]
  rw [(now_now h m hm n).len]; omega

/-- Reading before this bar's assignment: the value of `k` bars ago. -/
theorem after_get (h : Nat → R) (m n : Nat) (i : Int) (k : Nat) (hi : i = (k : Int)) (h0 : 1 ≤ k) (h1 : k < m) :
    (after h m n).get i = .ok (if k ≤ n then h (n - k) else c! 0) := by
  have hs := after_set h m (by omega) n (h n) rfl
  have H := after_holds h m (by omega) n
  subst hi
  have hv := H.val k h0 (by omega)
  have hl := H.len
  have hp := H.pos
  unfold get
  rw [if_pos ⟨by omega, by omega⟩]
  simp only [cell, hl] at hv
  have key : ∀ q : Int, 0 ≤ q → q.toNat = ((after h m n).pos + k) % m →
      rd (after h m n).buf q = .ok (if k ≤ n then h (n - k) else c! 0) := by
    intro q hq0 hq
    have hlt : ((after h m n).pos + k) % m < m := Nat.mod_lt _ (by omega)
    unfold rd
    rw [dif_pos ⟨hq0, by omega⟩]
    rw [List.getElem?_eq_getElem (by omega)] at hv
    have : (after h m n).buf[q.toNat]'(by omega) = (after h m n).buf[((after h m n).pos + k) % m]'(by omega) := by
      congr 1
    rw [this, Option.some.inj hv]
  simp only [hl]
  split
  · apply key
    · omega
    · rw [Nat.mod_eq_sub_mod (by omega), Nat.mod_eq_of_lt (by omega)]; omega
  · apply key
    · omega
    · rw [Nat.mod_eq_of_lt (by omega)]; omega

theorem after_zero (h : Nat → R) (m n : Nat) (hz : ∀ k, k < n → h k = c! 0) :
    (after h m n).buf = List.replicate m (c! 0) := by
  induction n with
  | zero => rfl
  | succ n ih =>
    have e : (after h m (n + 1)).buf = (after h m n).buf.set (after h m n).pos (h n) := rfl
    rw [e, ih (fun k hk => hz k (by omega)), hz n (by omega)]
    by_cases hp : (after h m n).pos < m
    · apply List.ext_getElem
      · simp
      · intro i h1 h2; simp [List.getElem_set]
    · rw [List.set_eq_of_length_le (by simp; omega)]

/-- Stepping a ring that holds only zeros, without an assignment. -/
theorem after_skip (h : Nat → R) (m n : Nat) (hz : ∀ k, k ≤ n → h k = c! 0) : (after h m n).step = after h m (n + 1) := by
  have e : (after h m (n + 1)) = ({ after h m n with buf := (after h m n).buf.set (after h m n).pos (h n) } : Ring R).step := rfl
  rw [e]
  have e1 : (after h m n).buf.set (after h m n).pos (h n) = (after h m n).buf := by
    have := after_zero h m (n + 1) (fun k hk => hz k (by omega))
    rw [after_zero h m n (fun k hk => hz k (by omega)), ← this]
    have e2 : (after h m (n + 1)).buf = (after h m n).buf.set (after h m n).pos (h n) := rfl
    rw [e2, after_zero h m n (fun k hk => hz k (by omega))]
    simp
  rw [e1]

end Ring

variable {R ρ ω : Type}

/-- Streams: the state is a function of the bars consumed. -/
theorem streamComputes_traj {I : Indicator R ρ ω} {o : Nat → R} {k : I.κ} {start : Nat} {s0 : I.σ}
    {val : (Nat → ρ) → Nat → ω} (hnew : I.new o = .ok (.made k (-(start : Int)) s0))
    (hord : Phases.Ordered (I.phases k)) (T : (Nat → ρ) → Nat → I.σ) (h0 : ∀ x, s0 = T x 0)
    (step : ∀ (x : Nat → ρ) (n : Nat), barStep (I.phases k) (-(start : Int) + n) (x n) (T x n) =
        .ok (T x (n + 1), if n < start then [] else [val x (n - start)])) :
    I.StreamComputes o start val :=
  streamComputes_of hnew hord (fun x n s => s = T x n) h0 (fun x n s hs => ⟨_, by rw [hs]; exact step x n, rfl⟩)

/-- Discharges `Phases.Ordered` for a literal list of loops with conditions `decide (p < …)`, the last one `true`. -/
macro "phases_ordered" ls:ident : tactic =>
  `(tactic| (
    constructor
    · unfold $ls:ident
      rw [List.forall_mem_cons]
      repeat' rw [List.forall_mem_cons]
      repeat' apply And.intro
      all_goals
        intro p h
        first
        | (exfalso; exact List.not_mem_nil h)
        | (exfalso; exact Bool.noConfusion h)
        | (simp at h ⊢; omega)
    · intro p
      exact ⟨_, List.getLast_mem (List.cons_ne_nil _ _), rfl⟩))

end Verif
