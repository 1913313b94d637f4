/- The summing buffer: refinement to "the values pushed so far" (helper lemmas). -/
import Verif.Model.TiBuf
import Verif.Core.Loops
import Mathlib.Algebra.BigOperators.Intervals
import Mathlib.Algebra.Order.Field.Basic
import Mathlib.Tactic.Linarith
import Mathlib.Data.List.Induction

set_option linter.unusedSectionVars false
set_option linter.unusedSimpArgs false

namespace Verif.TiBuf
variable {R : Type} [Num R]

/-- The sum a buffer of size `m` keeps after `n` pushes of `h 0, h 1, …` (any arithmetic). -/
def bsum (h : Nat → R) (m : Nat) : Nat → R
  | 0 => c! 0
  | n + 1 => if m ≤ n then bsum h m n - h (n - m) + h n else bsum h m n + h n

/-- State after `n` quick pushes of `h 0, …, h (n-1)`. -/
structure QHolds (b : TiBuf R) (m n : Nat) (h : Nat → R) : Prop where
  size : b.size = m
  len : b.vals.length = m
  index : b.index = (n % m : Nat)
  val : ∀ k, k < n → n ≤ k + m → b.vals[k % m]? = some (some (h k))

/-- State after `n` pushes. -/
structure Holds (b : TiBuf R) (m n : Nat) (h : Nat → R) : Prop extends QHolds b m n h where
  pushes : b.pushes = n
  sum : b.sum = bsum h m n

theorem new_ok (m : Nat) (h : Nat → R) : Holds (new (R := R) (m : Int)) m 0 h :=
  ⟨⟨rfl, by simp [new], by simp [new], by omega⟩, rfl, rfl⟩

theorem at_hist {b : TiBuf R} {m n : Nat} {h : Nat → R} (H : QHolds b m n h) (hm : 0 < m) (k : Nat) (h1 : k < n)
    (h2 : n ≤ k + m) (i : Int) (hi : i = (k % m : Nat)) : b.at_ i = .ok (h k) := by
  subst hi
  have hv := H.val k h1 h2
  have hl := H.len
  have hlt : k % m < b.vals.length := by rw [hl]; exact Nat.mod_lt _ hm
  rw [List.getElem?_eq_getElem hlt] at hv
  unfold at_ rd
  rw [dif_pos ⟨by omega, by rw [Int.toNat_natCast]; exact hlt⟩]
  simp only [Int.toNat_natCast, Option.some.inj hv, bind_ok]

theorem store_ok {b : TiBuf R} {m n : Nat} {h : Nat → R} (H : QHolds b m n h) (hm : 0 < m) (v : R) :
    b.store v = .ok (b.vals.set (n % m) (some v)) := by
  have := Nat.mod_lt n hm
  unfold store
  rw [if_pos (by rw [H.index, H.len]; omega), H.index, Int.toNat_natCast]

theorem next_ok {b : TiBuf R} {m n : Nat} {h : Nat → R} (H : QHolds b m n h) (hm : 0 < m) :
    b.next = ((n + 1) % m : Nat) := by
  have hlt := Nat.mod_lt n hm
  unfold next
  rw [H.index, H.size]
  have e : (n + 1) % m = (n % m + 1) % m := by rw [Nat.mod_add_mod]
  rw [e]
  generalize n % m = r at hlt
  split
  · rw [show r + 1 = m by omega, Nat.mod_self]; rfl
  · rw [Nat.mod_eq_of_lt (by omega)]; push_cast; rfl

theorem set_val {b : TiBuf R} {m n : Nat} {h : Nat → R} (H : QHolds b m n h) (hm : 0 < m) (v : R) (hv : v = h n) :
    ∀ k, k < n + 1 → n + 1 ≤ k + m → (b.vals.set (n % m) (some v))[k % m]? = some (some (h k)) := by
  intro k h1 h2
  have hlt := Nat.mod_lt n hm
  by_cases hk : k = n
  · subst hk; simp [H.len, hlt, hv]
  · rw [List.getElem?_set_ne, H.val k (by omega) (by omega)]
    intro he
    have h3 : (n - k) % m = 0 := Nat.sub_mod_eq_zero_of_mod_eq he
    rw [Nat.mod_eq_of_lt (by omega)] at h3
    omega

theorem qpush_ok {b : TiBuf R} {m n : Nat} {h : Nat → R} (H : QHolds b m n h) (hm : 0 < m) (v : R) (hv : v = h n) :
    ∃ b', b.qpush v = .ok b' ∧ QHolds b' m (n + 1) h ∧ b'.sum = b.sum ∧ b'.pushes = b.pushes := by
  refine ⟨{ b with index := b.next, vals := b.vals.set (n % m) (some v) }, ?_, ⟨H.size, by simp [H.len],
    next_ok H hm, set_val H hm v hv⟩, rfl, rfl⟩
  simp [qpush, store_ok H hm]

theorem push_ok {b : TiBuf R} {m n : Nat} {h : Nat → R} (H : Holds b m n h) (hm : 0 < m) (v : R) (hv : v = h n) :
    ∃ b', b.push v = .ok b' ∧ Holds b' m (n + 1) h := by
  refine ⟨⟨b.size, b.pushes + 1, b.next, bsum h m (n + 1), b.vals.set (n % m) (some v)⟩, ?_, ⟨⟨H.size, by simp [H.len],
    next_ok H.toQHolds hm, set_val H.toQHolds hm v hv⟩, by simp [H.pushes], rfl⟩⟩
  unfold push
  rw [H.size, H.pushes]
  by_cases hn : m ≤ n
  · rw [if_pos (by omega), at_hist H.toQHolds hm (n - m) (by omega) (by omega) _
      (by rw [H.index, ← Nat.mod_eq_sub_mod hn])]
    simp [store_ok H.toQHolds hm, H.sum, bsum, hn, hv]
  · rw [if_neg (by omega)]
    simp [store_ok H.toQHolds hm, H.sum, bsum, hn, hv]

/-- `ti_buffer_get(b, -k)`: the value pushed `k+1` pushes before now. -/
theorem get_ok {b : TiBuf R} {m n : Nat} {h : Nat → R} (H : QHolds b m n h) (k : Nat) (h1 : k < n)
    (h2 : k < m) : b.get (-(k : Int)) = .ok (h (n - 1 - k)) := by
  have hm : 0 < m := by omega
  have hlt := Nat.mod_lt n hm
  refine at_hist H hm (n - 1 - k) (by omega) (by omega) _ ?_
  rw [H.index, H.size, show ((n % m : Nat) : Int) + m - 1 + -(k : Int) = ((n % m + (m - 1 - k) : Nat) : Int) by omega]
  rw [← Int.ofNat_tmod]
  congr 1
  rw [Nat.mod_add_mod, show n + (m - 1 - k) = (n - 1 - k) + m by omega, Nat.add_mod_right]

/-- `ti_buffer_get(b, 1)` wraps around to the oldest value of a full buffer. -/
theorem get_one {b : TiBuf R} {m n : Nat} {h : Nat → R} (H : QHolds b m n h) (hm : 0 < m) (h1 : m ≤ n) :
    b.get 1 = .ok (h (n - m)) := by
  refine at_hist H hm (n - m) (by omega) (by omega) _ ?_
  rw [H.index, H.size, show ((n % m : Nat) : Int) + m - 1 + 1 = ((n % m + m : Nat) : Int) by omega]
  rw [← Int.ofNat_tmod]
  congr 1
  rw [Nat.add_mod_right, Nat.mod_mod, Nat.mod_eq_sub_mod h1]

theorem pushes_ok (m : Nat) (hm : 1 ≤ m) (vs : List R) (h : Nat → R) (hh : ∀ i (hi : i < vs.length), h i = vs[i]) :
    ∃ b, vs.foldlM TiBuf.push (TiBuf.new (R := R) (m : Int)) = .ok b ∧ Holds b m vs.length h := by
  induction vs using List.reverseRecOn with
  | nil => exact ⟨_, rfl, new_ok m h⟩
  | append_singleton ws w ih =>
    obtain ⟨b, hb, H⟩ := ih (fun i hi => by rw [hh i (by simp; omega)]; simp [List.getElem_append_left hi])
    obtain ⟨b', hb', H'⟩ := push_ok H hm w (by rw [hh ws.length (by simp)]; simp)
    exact ⟨b', by rw [List.foldlM_append, hb]; simp [hb'], by simpa using H'⟩

theorem qpushes_ok (m : Nat) (hm : 1 ≤ m) (vs : List R) (h : Nat → R) (hh : ∀ i (hi : i < vs.length), h i = vs[i]) :
    ∃ b, vs.foldlM TiBuf.qpush (TiBuf.new (R := R) (m : Int)) = .ok b ∧ QHolds b m vs.length h := by
  induction vs using List.reverseRecOn with
  | nil => exact ⟨_, rfl, (new_ok m h).toQHolds⟩
  | append_singleton ws w ih =>
    obtain ⟨b, hb, H⟩ := ih (fun i hi => by rw [hh i (by simp; omega)]; simp [List.getElem_append_left hi])
    obtain ⟨b', hb', H', _⟩ := qpush_ok H hm w (by rw [hh ws.length (by simp)]; simp)
    exact ⟨b', by rw [List.foldlM_append, hb]; simp [hb'], by simpa using H'⟩

/-- The buffer after `n` pushes of `h 0, h 1, …`, as a function (so that loop states can be written down). -/
def after (h : Nat → R) (m : Nat) : Nat → TiBuf R
  | 0 => new (m : Int)
  | n + 1 => match (after h m n).push (h n) with
    | .ok b => b
    | .error _ => after h m n

theorem after_holds (h : Nat → R) (m : Nat) (hm : 1 ≤ m) (n : Nat) : Holds (after h m n) m n h := by
  induction n with
  | zero => exact new_ok m h
  | succ n ih => obtain ⟨b, hb, H⟩ := push_ok ih hm (h n) rfl; simp only [after, hb]; exact H

theorem after_push (h : Nat → R) (m : Nat) (hm : 1 ≤ m) (n : Nat) (v : R) (hv : v = h n) :
    (after h m n).push v = .ok (after h m (n + 1)) := by
  subst hv
  obtain ⟨b, hb, _⟩ := push_ok (after_holds h m hm n) hm (h n) rfl
  simp only [after, hb]

theorem after_sum (h : Nat → R) (m : Nat) (hm : 1 ≤ m) (n : Nat) : (after h m n).sum = bsum h m n :=
  (after_holds h m hm n).sum

/-- The same with the pushes that skip the sum. -/
def qafter (h : Nat → R) (m : Nat) : Nat → TiBuf R
  | 0 => new (m : Int)
  | n + 1 => match (qafter h m n).qpush (h n) with
    | .ok b => b
    | .error _ => qafter h m n

theorem qafter_holds (h : Nat → R) (m : Nat) (hm : 1 ≤ m) (n : Nat) : QHolds (qafter h m n) m n h := by
  induction n with
  | zero => exact (new_ok m h).toQHolds
  | succ n ih => obtain ⟨b, hb, H, _⟩ := qpush_ok ih hm (h n) rfl; simp only [qafter, hb]; exact H

theorem qafter_qpush (h : Nat → R) (m : Nat) (hm : 1 ≤ m) (n : Nat) (v : R) (hv : v = h n) :
    (qafter h m n).qpush v = .ok (qafter h m (n + 1)) := by
  subst hv
  obtain ⟨b, hb, _⟩ := qpush_ok (qafter_holds h m hm n) hm (h n) rfl
  simp only [qafter, hb]

end Verif.TiBuf

namespace Verif.TiBuf
open Finset
variable {R : Type} [Field R] [LinearOrder R] [IsStrictOrderedRing R] [CMath R]

theorem bsum_eq (h : Nat → R) (m n : Nat) : bsum h m n = ∑ k ∈ Ico (n - m) n, h k := by
  induction n with
  | zero => simp [bsum]
  | succ n ih =>
    rw [bsum]
    split
    · rename_i hle
      rw [ih]
      have e1 := sum_Ico_succ_top (show n - m ≤ n by omega) h
      have e2 := sum_eq_sum_Ico_succ_bot (show n - m < n + 1 by omega) h
      rw [show n + 1 - m = n - m + 1 by omega]
      linarith
    · rename_i hlt
      rw [ih, show n - m = 0 by omega, show n + 1 - m = 0 by omega, sum_Ico_succ_top (by omega)]

theorem sum_drop (vs : List R) (d : R) : ∀ a, a ≤ vs.length →
    ∑ k ∈ Ico a vs.length, vs.getD k d = (vs.drop a).sum := by
  induction vs using List.reverseRecOn with
  | nil => intro a ha; simp
  | append_singleton ws w ih =>
    intro a ha
    simp only [List.length_append, List.length_singleton] at ha ⊢
    by_cases h : a ≤ ws.length
    · rw [sum_Ico_succ_top h, List.drop_append_of_le_length h, List.sum_append, ← ih a h]
      congr 1
      · refine sum_congr rfl fun k hk => ?_
        have := (mem_Ico.1 hk).2
        simp [List.getD_eq_getElem?_getD, List.getElem?_append_left this]
      · simp
    · rw [show a = ws.length + 1 by omega]; simp

end Verif.TiBuf
