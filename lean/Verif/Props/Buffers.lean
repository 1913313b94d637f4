/- C05, C06 (ring buffer), C07 (summing buffer). -/
import Verif.Spec.Buffer
import Verif.Proof.RingMax
import Verif.Proof.TiBuf
import Verif.Core.RatInst

namespace Verif
open Spec

section Any
variable {R : Type} [Num R]

/-- C05, `ringbuf<N>` and `ringbuf<0>`: any size, any history: `buffer[k]` is the value of `k` bars ago
(0 before the first), and reading the buffer itself gives the newest value. -/
theorem ring_remembers (m : Nat) (hm : 1 ≤ m) (vs : List R) (v : R) :
    ∃ r, ringAfter m vs v = .ok r ∧ r.cur = .ok v ∧ ∀ k : Nat, k < m → r.get (k : Int) = .ok (ago vs v k) := by
  obtain ⟨r, hr, H⟩ := ringAfter_now m hm vs v
  refine ⟨r, hr, by rw [Ring.cur_ok H]; simp, fun k hk => ?_⟩
  rw [Ring.get_ok H k (by omega) (by omega), ago_eq]
  simp

omit [Num R] in
/-- Outside 0 … N-1 the access is refused by the assert, whatever the state. -/
theorem ring_get_bounds (r : Ring R) (i : Int) (h : i < 0 ∨ r.buf.length ≤ i) : r.get i = .error .assertFail := by
  unfold Ring.get
  rw [if_neg (by omega)]

/-- C05, the specialisation `ringbuf<2>`. -/
theorem ring2_remembers (vs : List R) (v : R) :
    let r := (vs.foldl (fun r w => (r.set w).step) (Ring2.make : Ring2 R)).set v
    r.cur = v ∧ ∀ k : Nat, k < 2 → r.get (k : Int) = .ok (ago vs v k) := by
  intro r
  have h2 : (vs.foldl (fun r w => (r.set w).step) (Ring2.make : Ring2 R)).a2 = ago vs v 1 := by
    induction vs using List.reverseRecOn with
    | nil => rfl
    | append_singleton ws w ih => simp [ago, Ring2.step, Ring2.set]
  refine ⟨rfl, fun k hk => ?_⟩
  have : k = 0 ∨ k = 1 := by omega
  rcases this with rfl | rfl
  · rfl
  · show Ring2.get r 1 = _
    rw [← h2]; rfl

example : (ringAfter 3 [1, 2, 3, 4] (5 : Rat)).bind (fun r => r.get 2) = .ok 3 := by decide +kernel

/-- C07: any size, any pushes, any arithmetic: nothing undefined happens (no cell is read before it was written)
and `ti_buffer_get(b, -k)` is the value pushed `k` pushes before the last one. -/
theorem tibuf_remembers (m : Nat) (hm : 1 ≤ m) (vs : List R) :
    ∃ b, vs.foldlM TiBuf.push (TiBuf.new (R := R) (m : Int)) = .ok b ∧
      ∀ k : Nat, k < m → (h : k < vs.length) → b.get (-(k : Int)) = .ok (vs[vs.length - 1 - k]) := by
  obtain ⟨b, hb, H⟩ := TiBuf.pushes_ok m hm vs (fun i => vs.getD i (c! 0)) (fun i hi => by simp [hi])
  refine ⟨b, hb, fun k hk h => ?_⟩
  rw [TiBuf.get_ok H.toQHolds k h hk]
  simp [show vs.length - 1 - k < vs.length by omega]

/-- The same for the pushes that skip the sum. -/
theorem tibuf_qpush_remembers (m : Nat) (hm : 1 ≤ m) (vs : List R) :
    ∃ b, vs.foldlM TiBuf.qpush (TiBuf.new (R := R) (m : Int)) = .ok b ∧
      ∀ k : Nat, k < m → (h : k < vs.length) → b.get (-(k : Int)) = .ok (vs[vs.length - 1 - k]) := by
  obtain ⟨b, hb, H⟩ := TiBuf.qpushes_ok m hm vs (fun i => vs.getD i (c! 0)) (fun i hi => by simp [hi])
  refine ⟨b, hb, fun k hk h => ?_⟩
  rw [TiBuf.get_ok H k h hk]
  simp [show vs.length - 1 - k < vs.length by omega]

/-- On a full buffer `ti_buffer_get(b, 1)` is the oldest value (used by hma, adxr, …). -/
theorem tibuf_oldest (m : Nat) (hm : 1 ≤ m) (vs : List R) (h : m ≤ vs.length) :
    ∃ b, vs.foldlM TiBuf.push (TiBuf.new (R := R) (m : Int)) = .ok b ∧ b.get 1 = .ok (vs[vs.length - m]) := by
  obtain ⟨b, hb, H⟩ := TiBuf.pushes_ok m hm vs (fun i => vs.getD i (c! 0)) (fun i hi => by simp [hi])
  refine ⟨b, hb, ?_⟩
  rw [TiBuf.get_one H.toQHolds hm h]
  simp [show vs.length - m < vs.length by omega]

/-- Reading further back than was pushed reads memory that was never written (here: a fresh buffer). -/
theorem tibuf_uninit (m : Nat) (hm : 1 ≤ m) : (TiBuf.new (R := R) (m : Int)).get 0 = .error .uninit := by
  obtain ⟨q, rfl⟩ : ∃ q, m = q + 1 := ⟨m - 1, by omega⟩
  have : Int.tmod (0 + ((q + 1 : Nat) : Int) - 1 + 0) ((q + 1 : Nat) : Int) = (q : Int) := by
    rw [show (0 + ((q + 1 : Nat) : Int) - 1 + 0) = (q : Int) by omega, ← Int.ofNat_tmod, Nat.mod_eq_of_lt (by omega)]
  show TiBuf.at_ _ _ = _
  rw [show (TiBuf.new (R := R) ((q + 1 : Nat) : Int)).index + (TiBuf.new (R := R) ((q + 1 : Nat) : Int)).size - 1 + 0
    = 0 + ((q + 1 : Nat) : Int) - 1 + 0 from rfl, show (TiBuf.new (R := R) ((q + 1 : Nat) : Int)).size = ((q + 1 : Nat) : Int) from rfl, this]
  simp [TiBuf.at_, TiBuf.new, rd]

/-- A buffer of size 0 has no cell: `ti_buffer_qpush` writes past it, `ti_buffer_push` reads past it first. -/
theorem tibuf_empty (v : R) :
    (TiBuf.new (R := R) 0).qpush v = .error .oobWrite ∧ (TiBuf.new (R := R) 0).push v = .error .oobRead := ⟨rfl, rfl⟩

end Any

section Field
variable {R : Type} [Field R] [LinearOrder R] [IsStrictOrderedRing R] [CMath R]

/-- C07: `sum` is the sum of the last `size` values pushed. -/
theorem tibuf_sum (m : Nat) (hm : 1 ≤ m) (vs : List R) :
    ∃ b, vs.foldlM TiBuf.push (TiBuf.new (R := R) (m : Int)) = .ok b ∧
      b.sum = (vs.drop (vs.length - m)).sum := by
  obtain ⟨b, hb, H⟩ := TiBuf.pushes_ok m hm vs (fun i => vs.getD i (c! 0)) (fun i hi => by simp [hi])
  refine ⟨b, hb, ?_⟩
  rw [H.sum, TiBuf.bsum_eq, TiBuf.sum_drop _ _ _ (by omega)]

/-- C06: for every size, history and `1 ≤ period ≤ N`, `find_max(period)` finds a cell whose value is the
greatest of the last `period` values, and `iterator_to_age` tells how many bars ago it was stored. -/
theorem ring_find_max (m : Nat) (vs : List R) (v : R) (p : Nat) (hp : 1 ≤ p) (hpm : p ≤ m) :
    ∃ r it a, ringAfter m vs v = .ok r ∧ r.findMax cmpLess (p : Int) = .ok it ∧ r.age it = .ok a ∧
      a < p ∧ rd r.buf it = .ok (ago vs v a) ∧ ∀ k, k < p → ago vs v k ≤ ago vs v a := by
  obtain ⟨r, hr, H⟩ := ringAfter_now m (by omega) vs v
  obtain ⟨it, a, h1, h2, h3, h4, h5⟩ := Ring.findMax_ok (cmp := cmpLess) (le := (· ≤ ·))
    ⟨le_refl, fun _ _ _ => le_trans, fun a b h => le_of_lt (by simpa [cmpLess] using h),
      fun a b h => by simpa [cmpLess] using h⟩
    H.len H.pos (g := ago vs v) (fun k hk => by rw [H.val k hk, ago_eq]) p hp hpm
  exact ⟨r, it, a, hr, h1, h2, h3, h4, h5⟩

/-- C06: the same for `find_min`. -/
theorem ring_find_min (m : Nat) (vs : List R) (v : R) (p : Nat) (hp : 1 ≤ p) (hpm : p ≤ m) :
    ∃ r it a, ringAfter m vs v = .ok r ∧ r.findMax cmpGreater (p : Int) = .ok it ∧ r.age it = .ok a ∧
      a < p ∧ rd r.buf it = .ok (ago vs v a) ∧ ∀ k, k < p → ago vs v a ≤ ago vs v k := by
  obtain ⟨r, hr, H⟩ := ringAfter_now m (by omega) vs v
  obtain ⟨it, a, h1, h2, h3, h4, h5⟩ := Ring.findMax_ok (cmp := cmpGreater) (le := (fun x y : R => y ≤ x))
    ⟨le_refl, fun _ _ _ h h' => le_trans h' h, fun a b h => le_of_lt (by simpa [cmpGreater] using h),
      fun a b h => by simpa [cmpGreater] using h⟩
    H.len H.pos (g := ago vs v) (fun k hk => by rw [H.val k hk, ago_eq]) p hp hpm
  exact ⟨r, it, a, hr, h1, h2, h3, h4, h5⟩

example : (ringAfter 3 [7, 2, 3, 4] (1 : Rat)).bind (fun r => r.findMax cmpLess 3 >>= r.age) = .ok 1 := by
  decide +kernel
example : (ringAfter 4 [7, 9, 3, 4] (5 : Rat)).bind (fun r => r.findMax cmpGreater 3 >>= r.age) = .ok 2 := by
  decide +kernel

/-- C06, `ringbuf<2>`: which of the two cells `find_max`/`find_min` return. -/
theorem ring2_find_max (r : Ring2 R) :
    (if r.findMax then r.a1 else r.a2) = max r.a1 r.a2 ∧ (if r.findMin then r.a1 else r.a2) = min r.a1 r.a2 := by
  simp only [Ring2.findMax, Ring2.findMin, decide_eq_true_eq]
  constructor
  · split
    · rename_i h; exact (max_eq_left h).symm
    · rename_i h; exact (max_eq_right (not_le.1 h).le).symm
  · split
    · rename_i h; exact (min_eq_left h).symm
    · rename_i h; exact (min_eq_right (not_le.1 h).le).symm

end Field
end Verif
