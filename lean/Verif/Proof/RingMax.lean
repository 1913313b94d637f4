/- Ring buffer: the extremum search (helper lemmas). -/
import Verif.Proof.Ring
import Verif.Spec.Buffer
import Mathlib.Data.List.Induction

namespace Verif.Ring
set_option linter.unusedSectionVars false
variable {R : Type} [Num R]

/-- What the search needs of a comparison. -/
structure Cmp (cmp : R → R → Bool) (le : R → R → Prop) : Prop where
  rfl' : ∀ a, le a a
  trans : ∀ a b c, le a b → le b c → le a c
  of_true : ∀ a b, cmp a b = true → le a b
  of_false : ∀ a b, cmp a b = false → le b a

theorem rd_get? {α : Type} {b : List α} {f : α} {i : Nat} (h : b[i]? = some f) : rd b (i : Int) = .ok f := by
  obtain ⟨hlt, he⟩ := List.getElem?_eq_some_iff.1 h
  unfold rd
  rw [dif_pos ⟨by omega, by simpa using hlt⟩]
  simp [he]

theorem scanDown_ok {cmp : R → R → Bool} {le : R → R → Prop} (C : Cmp cmp le) (b : List R) (f : Nat → R) (lo hi : Nat)
    (hf : ∀ j, lo ≤ j → j < hi → b[j]? = some (f j)) : ∀ (n best : Nat), lo + n ≤ best → best < hi →
      (∀ j, lo + n ≤ j → j < hi → le (f j) (f best)) →
      ∃ it, scanDown cmp b lo n best = .ok it ∧ lo ≤ it ∧ it < hi ∧ ∀ j, lo ≤ j → j < hi → le (f j) (f it) := by
  intro n
  induction n with
  | zero => intro best h1 h2 h3; exact ⟨best, rfl, by omega, h2, fun j hj => h3 j (by omega)⟩
  | succ n ih =>
    intro best h1 h2 h3
    rw [scanDown, rd_get? (hf best (by omega) h2), bind_ok, rd_get? (hf (lo + n) (by omega) (by omega)), bind_ok]
    cases hcmp : cmp (f best) (f (lo + n)) with
    | true =>
      rw [if_pos rfl]
      refine ih _ (by omega) (by omega) fun j hj1 hj2 => ?_
      by_cases hj : j = lo + n
      · subst hj; exact C.rfl' _
      · exact C.trans _ _ _ (h3 j (by omega) hj2) (C.of_true _ _ hcmp)
    | false =>
      rw [if_neg (by simp)]
      refine ih _ (by omega) h2 fun j hj1 hj2 => ?_
      by_cases hj : j = lo + n
      · subst hj; exact C.of_false _ _ hcmp
      · exact h3 j (by omega) hj2

theorem maxDown_ok {cmp : R → R → Bool} {le : R → R → Prop} (C : Cmp cmp le) (b : List R) (f : Nat → R) (lo hi : Nat)
    (hlt : lo < hi) (hf : ∀ j, lo ≤ j → j < hi → b[j]? = some (f j)) :
    ∃ it, maxDown cmp b lo hi = .ok it ∧ lo ≤ it ∧ it < hi ∧ ∀ j, lo ≤ j → j < hi → le (f j) (f it) := by
  unfold maxDown
  rw [if_pos hlt]
  refine scanDown_ok C b f lo hi hf _ _ (by omega) (by omega) fun j h1 h2 => ?_
  obtain rfl : j = hi - 1 := by omega
  exact C.rfl' _

theorem findMax_ok {cmp : R → R → Bool} {le : R → R → Prop} (C : Cmp cmp le) {r : Ring R} {m : Nat} {g : Nat → R}
    (hl : r.buf.length = m) (hpos : r.pos < m) (hv : ∀ k, k < m → r.cell k = some (g k)) (p : Nat) (hp : 1 ≤ p)
    (hpm : p ≤ m) : ∃ it a, r.findMax cmp (p : Int) = .ok it ∧ r.age it = .ok a ∧ a < p ∧
      rd r.buf it = .ok (g a) ∧ ∀ k, k < p → le (g k) (g a) := by
  have hcell1 : ∀ j, r.pos ≤ j → j < m → r.buf[j]? = some (g (j - r.pos)) := by
    intro j h1 h2
    have := hv (j - r.pos) (by omega)
    rwa [cell, hl, show r.pos + (j - r.pos) = j by omega, Nat.mod_eq_of_lt h2] at this
  have hcell2 : ∀ j, j < r.pos → r.buf[j]? = some (g (j + m - r.pos)) := by
    intro j h1
    have := hv (j + m - r.pos) (by omega)
    rwa [cell, hl, show r.pos + (j + m - r.pos) = j + m by omega, Nat.add_mod_right, Nat.mod_eq_of_lt (by omega)] at this
  have hage1 : ∀ j, r.pos ≤ j → j < m → r.age j = .ok (j - r.pos) := by
    intro j h1 h2
    rw [age, hl, if_pos h2, show j + (m - r.pos) = (j - r.pos) + m by omega, Nat.add_mod_right,
      Nat.mod_eq_of_lt (by omega)]
  have hage2 : ∀ j, j < r.pos → r.age j = .ok (j + m - r.pos) := by
    intro j h1
    rw [age, hl, if_pos (by omega), show j + (m - r.pos) = j + m - r.pos by omega, Nat.mod_eq_of_lt (by omega)]
  unfold findMax
  rw [hl, if_pos ⟨by omega, by omega⟩]
  simp only [Int.toNat_natCast]
  by_cases hw : r.pos + p > m
  · rw [if_pos hw]
    obtain ⟨i1, e1, l1, u1, m1⟩ := maxDown_ok C r.buf (fun j => g (j - r.pos)) r.pos (r.pos + (m - r.pos)) (by omega)
      (fun j h1 h2 => hcell1 j h1 (by omega))
    obtain ⟨i2, e2, l2, u2, m2⟩ := maxDown_ok C r.buf (fun j => g (j + m - r.pos)) 0 (p - (m - r.pos)) (by omega)
      (fun j h1 h2 => hcell2 j (by omega))
    rw [e1, bind_ok, e2, bind_ok, rd_get? (hcell1 i1 l1 (by omega)), bind_ok, rd_get? (hcell2 i2 (by omega)), bind_ok]
    cases hcmp : cmp (g (i1 - r.pos)) (g (i2 + m - r.pos)) with
    | false =>
      refine ⟨i1, _, by simp, hage1 i1 l1 (by omega), by omega, rd_get? (hcell1 i1 l1 (by omega)), fun k hk => ?_⟩
      by_cases hk' : r.pos + k < m
      · have := m1 (r.pos + k) (by omega) (by omega)
        rwa [show r.pos + k - r.pos = k by omega] at this
      · have := m2 (r.pos + k - m) (by omega) (by omega)
        rw [show r.pos + k - m + m - r.pos = k by omega] at this
        exact C.trans _ _ _ this (C.of_false _ _ hcmp)
    | true =>
      refine ⟨i2, _, by simp, hage2 i2 (by omega), by omega, rd_get? (hcell2 i2 (by omega)), fun k hk => ?_⟩
      by_cases hk' : r.pos + k < m
      · have := m1 (r.pos + k) (by omega) (by omega)
        rw [show r.pos + k - r.pos = k by omega] at this
        exact C.trans _ _ _ this (C.of_true _ _ hcmp)
      · have := m2 (r.pos + k - m) (by omega) (by omega)
        rwa [show r.pos + k - m + m - r.pos = k by omega] at this
  · rw [if_neg hw]
    obtain ⟨i1, e1, l1, u1, m1⟩ := maxDown_ok C r.buf (fun j => g (j - r.pos)) r.pos (r.pos + p) (by omega)
      (fun j h1 h2 => hcell1 j h1 (by omega))
    refine ⟨i1, _, e1, hage1 i1 l1 (by omega), by omega, rd_get? (hcell1 i1 l1 (by omega)), fun k hk => ?_⟩
    have := m1 (r.pos + k) (by omega) (by omega)
    simpa using this

end Verif.Ring

namespace Verif
open Spec
variable {R : Type} [Num R]

theorem ringAfter_now (m : Nat) (hm : 1 ≤ m) (vs : List R) (v : R) :
    ∃ r, ringAfter m vs v = .ok r ∧ Ring.Now r m vs.length (fun i => (vs ++ [v]).getD i v) := by
  have key : ∀ (ws : List R) (h : Nat → R), (∀ i (hi : i < ws.length), h i = ws[i]) →
      ∃ r, (Ring.make (m : Int) >>= fun r => ws.foldlM ringBar r) = .ok r ∧ Ring.Holds r m ws.length h := by
    intro ws
    induction ws using List.reverseRecOn with
    | nil =>
      intro h _
      obtain ⟨r, hr, H⟩ := Ring.make_ok (R := R) m hm
      exact ⟨r, by rw [hr]; rfl, H h⟩
    | append_singleton ws w ih =>
      intro h hh
      obtain ⟨r, hr, H⟩ := ih h (fun i hi => by
        rw [hh i (by simp; omega)]; simp [List.getElem_append_left hi])
      obtain ⟨r', hr', H'⟩ := Ring.set_ok H w (by rw [hh ws.length (by simp)]; simp)
      refine ⟨r'.step, ?_, by simpa using Ring.step_ok H'⟩
      have : (Ring.make (m : Int) >>= fun r => (ws ++ [w]).foldlM ringBar r)
          = ((Ring.make (m : Int) >>= fun r => ws.foldlM ringBar r) >>= fun r => ringBar r w) := by
        cases Ring.make (R := R) (m : Int) with
        | error e => rfl
        | ok r0 =>
          simp only [bind_ok, List.foldlM_append]
          congr 1; funext r1
          simp only [List.foldlM_cons, List.foldlM_nil]
          cases ringBar r1 w <;> rfl
      rw [this, hr, bind_ok]
      simp [ringBar, hr']
  obtain ⟨r, hr, H⟩ := key vs (fun i => (vs ++ [v]).getD i v) (fun i hi => by
    simp [List.getD_eq_getElem?_getD, List.getElem?_append_left hi, hi])
  obtain ⟨r', hr', H'⟩ := Ring.set_ok H v (by simp)
  refine ⟨r', ?_, H'⟩
  unfold ringAfter
  cases hmk : Ring.make (R := R) (m : Int) with
  | error e => rw [hmk] at hr; cases hr
  | ok r0 => rw [hmk, bind_ok] at hr; rw [bind_ok, hr, bind_ok, hr']

theorem ago_eq (vs : List R) (v : R) (k : Nat) :
    ago vs v k = if k ≤ vs.length then (vs ++ [v]).getD (vs.length - k) v else c! 0 := by
  unfold ago
  split
  · rename_i h
    rcases Nat.eq_zero_or_pos k with rfl | hk
    · simp
    · obtain ⟨j, rfl⟩ : ∃ j, k = j + 1 := ⟨k - 1, by omega⟩
      simp only [List.getElem?_cons_succ, List.getD_eq_getElem?_getD]
      rw [List.getElem?_reverse (by omega), List.getElem?_append_left (by omega), show vs.length - 1 - j = vs.length - (j + 1) by omega]
      rw [List.getElem?_eq_getElem (by omega)]; rfl
  · rename_i h
    rw [List.getElem?_eq_none (by simp; omega)]; rfl

end Verif
