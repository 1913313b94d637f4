/- Ring buffer: refinement to "value k steps ago" (helper lemmas). -/
import Verif.Model.Ring
import Verif.Core.Loops

namespace Verif.Ring
variable {R : Type} [Num R]

/-- The cell `k` steps back from the current position, as a plain list lookup. -/
def cell (r : Ring R) (k : Nat) : Option R := r.buf[(r.pos + k) % r.buf.length]?

/-- After `n` completed bars storing `h 0, …, h (n-1)` into a ring of `m` cells. -/
structure Holds (r : Ring R) (m n : Nat) (h : Nat → R) : Prop where
  len : r.buf.length = m
  pos : r.pos < m
  val : ∀ k, 1 ≤ k → k ≤ m → r.cell k = some (if k ≤ n then h (n - k) else c! 0)

/-- During bar `n`, after the assignment of `h n`. -/
structure Now (r : Ring R) (m n : Nat) (h : Nat → R) : Prop where
  len : r.buf.length = m
  pos : r.pos < m
  val : ∀ k, k < m → r.cell k = some (if k ≤ n then h (n - k) else c! 0)

theorem make_ok (m : Nat) (hm : 0 < m) :
    ∃ r : Ring R, make (m : Int) = .ok r ∧ ∀ h : Nat → R, Holds r m 0 h := by
  refine ⟨⟨List.replicate m (c! 0), 0⟩, ?_, ?_⟩
  · simp [make, hm]
  · intro h; refine ⟨by simp, hm, ?_⟩
    intro k h1 h2
    have : k % m < m := Nat.mod_lt _ hm
    simp [cell, this, show ¬ k ≤ 0 by omega]

theorem set_ok {r : Ring R} {m n : Nat} {h : Nat → R} (H : Holds r m n h) (v : R) (hv : v = h n) :
    ∃ r', r.set v = .ok r' ∧ Now r' m n h := by
  refine ⟨{ r with buf := r.buf.set r.pos v }, ?_, ?_⟩
  · simp [set, H.len, H.pos]
  · refine ⟨by simp [H.len], H.pos, ?_⟩
    intro k hk
    have hl := H.len
    have hp := H.pos
    rcases Nat.eq_zero_or_pos k with rfl | hk0
    · simp [cell, hl, Nat.mod_eq_of_lt hp, hp, hv]
    · have := H.val k hk0 (by omega)
      simp only [cell, hl] at this
      simp only [cell, List.length_set, hl]
      rw [List.getElem?_set_ne, this]
      intro heq
      by_cases hlt : r.pos + k < m
      · rw [Nat.mod_eq_of_lt hlt] at heq; omega
      · rw [Nat.mod_eq_sub_mod (by omega), Nat.mod_eq_of_lt (by omega)] at heq; omega

theorem get_ok {r : Ring R} {m n : Nat} {h : Nat → R} (H : Now r m n h) (i : Int) (h0 : 0 ≤ i)
    (h1 : i < m) : r.get i = .ok (if i ≤ n then h (n - i.toNat) else c! 0) := by
  have hl := H.len
  have hp := H.pos
  have hv := H.val i.toNat (by omega)
  unfold get
  rw [if_pos ⟨by omega, by omega⟩]
  simp only [cell, hl] at hv
  have key : ∀ q : Int, 0 ≤ q → q.toNat = (r.pos + i.toNat) % m →
      rd r.buf q = .ok (if i ≤ n then h (n - i.toNat) else c! 0) := by
    intro q hq0 hq
    have hlt : (r.pos + i.toNat) % m < m := Nat.mod_lt _ (by omega)
    unfold rd
    rw [dif_pos ⟨hq0, by omega⟩]
    rw [List.getElem?_eq_getElem (by omega)] at hv
    have : r.buf[q.toNat]'(by omega) = r.buf[(r.pos + i.toNat) % m]'(by omega) := by
      congr 1
    rw [this, Option.some.inj hv]
    by_cases hin : i ≤ n
    · rw [if_pos hin, if_pos (by omega)]
    · rw [if_neg hin, if_neg (by omega)]
  simp only [hl]
  split
  · apply key
    · omega
    · rw [Nat.mod_eq_sub_mod (by omega), Nat.mod_eq_of_lt (by omega)]; omega
  · apply key
    · omega
    · rw [Nat.mod_eq_of_lt (by omega)]; omega

theorem get_ok_hist {r : Ring R} {m n : Nat} {h : Nat → R} (H : Now r m n h) (k : Nat)
    (h1 : k < m) (h2 : k ≤ n) : r.get (k : Int) = .ok (h (n - k)) := by
  rw [get_ok H k (by omega) (by omega), if_pos (by omega)]; simp

theorem cur_ok {r : Ring R} {m n : Nat} {h : Nat → R} (H : Now r m n h) : r.cur = .ok (h n) := by
  have hv := H.val 0 (by have := H.pos; omega)
  simp only [cell, H.len, Nat.add_zero, Nat.mod_eq_of_lt H.pos, Nat.zero_le, if_true, Nat.sub_zero] at hv
  unfold cur rd
  have : r.pos < r.buf.length := by rw [H.len]; exact H.pos
  rw [dif_pos ⟨by omega, by simpa using this⟩]
  rw [List.getElem?_eq_getElem this] at hv
  simp [Option.some.inj hv]

theorem step_ok {r : Ring R} {m n : Nat} {h : Nat → R} (H : Now r m n h) :
    Holds r.step m (n + 1) h := by
  have hl := H.len
  have hp := H.pos
  refine ⟨by simp [step, hl], ?_, ?_⟩
  · simp only [step, hl]; split <;> omega
  · intro k h1 h2
    have hv := H.val (k - 1) (by omega)
    simp only [cell, hl] at hv
    simp only [cell, step, hl]
    have e : ((if r.pos = 0 then m - 1 else r.pos - 1) + k) % m = (r.pos + (k - 1)) % m := by
      split
      · rename_i h0
        rw [h0]
        have : m - 1 + k = (0 + (k - 1)) + m := by omega
        rw [this, Nat.add_mod_right]
      · congr 1; omega
    rw [e, hv]
    congr 1
    by_cases hk : k ≤ n + 1
    · rw [if_pos hk, if_pos (by omega)]; congr 1; omega
    · rw [if_neg hk, if_neg (by omega)]

end Verif.Ring
