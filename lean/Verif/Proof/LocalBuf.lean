/- Proofs about `Model/LocalBuf.lean`. -/
import Verif.Spec.LocalBuf
import Verif.Core.Loops
import Mathlib.Tactic.Linarith

namespace Verif.LocalBuf
set_option linter.unusedVariables false
set_option linter.unusedSimpArgs false
open Spec

theorem rd_nat {α : Type} {xs : List α} {i : Int} (n : Nat) (hi : i = n) (h : n < xs.length) : rd xs i = .ok xs[n] := by
  subst hi
  unfold rd
  rw [dif_pos ⟨by omega, by simpa using h⟩]
  simp

theorem put_ok {α : Type} (xs : List α) (i : Int) (v : α) (h0 : 0 ≤ i) (h1 : i < xs.length) :
    ∃ ys, put xs i v = .ok ys ∧ ys.length = xs.length ∧ rd ys i = .ok v ∧ ∀ j, j ≠ i → rd ys j = rd xs j := by
  refine ⟨xs.set i.toNat v, by unfold put; rw [if_pos ⟨h0, h1⟩], by simp, ?_, fun j hj => ?_⟩
  · rw [rd_nat i.toNat (by omega) (by rw [List.length_set]; omega)]
    simp
  · unfold rd
    simp only [List.length_set]
    split
    · rename_i hc
      congr 1
      rw [List.getElem_set_ne (by omega)]
    · rfl

/-- Where buffer `k` starts. -/
def off (sizes : List Nat) (k : Nat) : Nat := (sizes.take k).sum

theorem off_succ (sizes : List Nat) (k : Nat) (h : k < sizes.length) : off sizes (k + 1) = off sizes k + sizes[k] := by
  unfold off
  rw [List.take_succ_eq_append_getElem h, List.sum_append]
  simp

theorem off_mono (sizes : List Nat) {j k : Nat} (h : j ≤ k) : off sizes j ≤ off sizes k := by
  unfold off
  induction h with
  | refl => exact le_rfl
  | @step m h ih =>
    by_cases hm : m < sizes.length
    · rw [List.take_succ_eq_append_getElem hm, List.sum_append]
      exact le_trans ih (Nat.le_add_right _ _)
    · rw [List.take_of_length_le (show sizes.length ≤ m + 1 by omega)]
      rwa [List.take_of_length_le (show sizes.length ≤ m by omega)] at ih

theorem off_le_sum (sizes : List Nat) (k : Nat) : off sizes k ≤ sizes.sum := by
  have h := off_mono sizes (show k ≤ max k sizes.length from le_max_left _ _)
  have e : off sizes (max k sizes.length) = sizes.sum := by unfold off; rw [List.take_of_length_le (le_max_right _ _)]
  omega

/-- What the ints say. -/
structure InfoOk (info : List Int) (sizes : List Nat) (m : Nat) (idx : Nat → Int) : Prop where
  len : info.length = 4 * (sizes.length + 1)
  offset : ∀ k, k < m → rd info (slot k) = .ok (off sizes k : Int)
  size : ∀ k, (h : k < m) → (h' : k < sizes.length) → rd info (slot k + 1) = .ok (sizes[k] : Int)
  index : ∀ k, k < m → rd info (slot k + 2) = .ok (idx k)

theorem init_ok {info : List Int} {sizes : List Nat} {k : Nat} (hk : k < sizes.length) (hs : sizes.sum ≤ 2147483647)
    (H : InfoOk info sizes k fun _ => -1) (hz : k = 0 → rd info 0 = .ok 0 ∧ rd info 1 = .ok 0) :
    ∃ info', init info k (sizes[k] : Int) = .ok info' ∧ InfoOk info' sizes (k + 1) fun _ => -1 := by
  have hlen := H.len
  have prev : ∃ a b : Int, rd info (slot k - 3) = .ok a ∧ rd info (slot k - 4) = .ok b ∧ a + b = off sizes k := by
    cases k with
    | zero => exact ⟨0, 0, (hz rfl).2, (hz rfl).1, by simp [off]⟩
    | succ j =>
      refine ⟨sizes[j], off sizes j, ?_, ?_, ?_⟩
      · rw [← H.size j (by omega) (by omega)]; congr 1; unfold slot; push_cast; omega
      · rw [← H.offset j (by omega)]; congr 1; unfold slot; push_cast; omega
      · rw [off_succ sizes j (by omega)]; push_cast; omega
  obtain ⟨a, b, ha, hb, hab⟩ := prev
  have hsl : slot k = 4 * (k : Int) + 4 := by unfold slot; omega
  have hoff := off_le_sum sizes k
  obtain ⟨i1, p1, l1, s1, n1⟩ := put_ok info (slot k) (off sizes k : Int) (by omega) (by rw [hlen]; push_cast; omega)
  obtain ⟨i2, p2, l2, s2, n2⟩ := put_ok i1 (slot k + 1) (sizes[k] : Int) (by omega) (by rw [l1, hlen]; push_cast; omega)
  obtain ⟨i3, p3, l3, s3, n3⟩ := put_ok i2 (slot k + 2) (-1 : Int) (by omega) (by rw [l2, l1, hlen]; push_cast; omega)
  refine ⟨i3, ?_, ?_⟩
  · unfold init
    rw [ha, bind_ok, hb, bind_ok, hab, i32_ok _ (by omega) (by omega), bind_ok, p1, bind_ok, p2, bind_ok, p3]
  · have sl : ∀ j, slot j = 4 * (j : Int) + 4 := fun j => by unfold slot; omega
    refine ⟨by rw [l3, l2, l1, hlen], fun j hj => ?_, fun j hj hj' => ?_, fun j hj => ?_⟩
    · rw [n3 _ (by rw [sl, sl]; omega), n2 _ (by rw [sl, sl]; omega)]
      by_cases e : j = k
      · subst e; exact s1
      · rw [n1 _ (by rw [sl, sl]; omega), H.offset j (by omega)]
    · rw [n3 _ (by rw [sl, sl]; omega)]
      by_cases e : j = k
      · subst e; exact s2
      · rw [n2 _ (by rw [sl, sl]; omega), n1 _ (by rw [sl, sl]; omega), H.size j (by omega) hj']
    · by_cases e : j = k
      · subst e; exact s3
      · rw [n3 _ (by rw [sl, sl]; omega), n2 _ (by rw [sl, sl]; omega), n1 _ (by rw [sl, sl]; omega), H.index j (by omega)]

theorem inits_ok {sizes : List Nat} (hs : sizes.sum ≤ 2147483647) : ∀ (n k : Nat) (info : List Int), k + n = sizes.length →
    InfoOk info sizes k (fun _ => -1) → (k = 0 → rd info 0 = .ok 0 ∧ rd info 1 = .ok 0) →
    ∃ info', inits k info ((sizes.drop k).map fun s : Nat => (s : Int)) = .ok info' ∧ InfoOk info' sizes sizes.length fun _ => -1
  | 0, k, info, hk, H, _ => by
    have : k = sizes.length := by omega
    subst this
    rw [List.drop_length]
    exact ⟨info, rfl, H⟩
  | n + 1, k, info, hk, H, hz => by
    have hk' : k < sizes.length := by omega
    rw [List.drop_eq_getElem_cons hk', List.map_cons]
    obtain ⟨i1, h1, H1⟩ := init_ok hk' hs H hz
    obtain ⟨i2, h2, H2⟩ := inits_ok hs n (k + 1) i1 (by omega) H1 (fun h => by omega)
    exact ⟨i2, by rw [inits, h1, bind_ok, h2], H2⟩

theorem make_ok {R : Type} (sizes : List Nat) (hm : sizes ≠ []) (hs : sizes.sum ≤ 2147483647) :
    ∃ info, make (R := R) (sizes.map fun s : Nat => (s : Int)) = .ok ⟨info, List.replicate sizes.sum none⟩ ∧
      InfoOk info sizes sizes.length fun _ => -1 := by
  obtain ⟨info, h, H⟩ := inits_ok hs sizes.length 0 (List.replicate (4 * (sizes.length + 1)) 0) (by omega)
    ⟨by simp, fun k hk => by omega, fun k hk => by omega, fun k hk => by omega⟩
    (fun _ => ⟨by rw [rd_nat (i := 0) 0 rfl (by simp)]; simp, by rw [rd_nat (i := 1) 1 rfl (by simp; omega)]; simp⟩)
  rw [List.drop_zero] at h
  refine ⟨info, ?_, H⟩
  have hlen := H.len
  have hpos : 0 < sizes.length := List.length_pos_iff.2 hm
  have e1 := H.size (sizes.length - 1) (by omega) (by omega)
  have e2 := H.offset (sizes.length - 1) (by omega)
  have es := off_succ sizes (sizes.length - 1) (by omega)
  rw [show sizes.length - 1 + 1 = sizes.length by omega] at es
  have et : off sizes sizes.length = sizes.sum := by unfold off; rw [List.take_length]
  unfold make total
  rw [List.length_map, h, bind_ok]
  rw [show (info.length : Int) - 3 = slot (sizes.length - 1) + 1 by rw [hlen]; unfold slot; push_cast; omega,
    show (info.length : Int) - 4 = slot (sizes.length - 1) by rw [hlen]; unfold slot; push_cast; omega, e1, bind_ok, e2, bind_ok,
    i32_ok _ (by omega) (by omega), bind_ok]
  rw [show ((sizes[sizes.length - 1] : Nat) : Int) + (off sizes (sizes.length - 1) : Int) = (sizes.sum : Int) by omega]
  rfl

/-- Index of the newest value after `n` pushes to a ring of `s` cells. -/
def newest (s n : Nat) : Int := if n = 0 then -1 else ((n - 1) % s : Nat)

/-- The buffers after the pushes `h k` to buffer `k`. -/
structure Holds {R : Type} (b : LocalBuf R) (sizes : List Nat) (h : Nat → List R) : Prop where
  info : InfoOk b.info sizes sizes.length fun k => newest (sizes.getD k 0) (h k).length
  len : b.cells.length = sizes.sum
  cells : ∀ k (hk : k < sizes.length) j (hj : j < (h k).length), (h k).length ≤ j + sizes[k] →
    rd b.cells ((off sizes k + j % sizes[k] : Nat) : Int) = .ok (some (h k)[j])

theorem mod_succ (s n : Nat) (hs : 1 ≤ s) (hn : 1 ≤ n) : (if (n - 1) % s + 1 = s then 0 else (n - 1) % s + 1) = n % s := by
  obtain ⟨t, rfl⟩ : ∃ t, n = t + 1 := ⟨n - 1, by omega⟩
  rw [Nat.add_sub_cancel]
  have h1 := Nat.mod_lt t hs
  have h2 := Nat.div_add_mod t s
  generalize t / s = q at h2
  generalize t % s = r at h1 h2 ⊢
  subst h2
  split
  · rename_i e
    have : s * q + r + 1 = s * (q + 1) := by rw [Nat.mul_add, Nat.mul_one]; omega
    rw [this, Nat.mul_mod_right]
  · rw [Nat.add_assoc, Nat.mul_add_mod, Nat.mod_eq_of_lt (by omega)]

theorem mod_ne (s j n : Nat) (h1 : j < n) (h2 : n < j + s) : j % s ≠ n % s := by
  intro e
  have a := Nat.div_add_mod j s
  have b := Nat.div_add_mod n s
  rw [e] at a
  have hd : n - j = s * (n / s) - s * (j / s) := by omega
  rw [← Nat.mul_sub] at hd
  rcases Nat.eq_zero_or_pos (n / s - j / s) with h | h
  · rw [h, Nat.mul_zero] at hd; omega
  · have := Nat.le_mul_of_pos_right s h
    omega

theorem newest_bound (s n : Nat) (hs : 1 ≤ s) : -2147483648 ≤ newest s n + 1 ∧ newest s n + 1 ≤ s := by
  unfold newest
  have := Nat.mod_lt (n - 1) hs
  split <;> omega

theorem push_ok {R : Type} {b : LocalBuf R} {sizes : List Nat} {h : Nat → List R} (hs : ∀ s ∈ sizes, 1 ≤ s) (ht : sizes.sum ≤ 2147483647) (H : Holds b sizes h) (k : Nat)
    (hk : k < sizes.length) (v : R) : ∃ b', b.push k v = .ok b' ∧ Holds b' sizes fun j => if j = k then h k ++ [v] else h j := by
  have hsk : 1 ≤ sizes[k] := hs _ (List.getElem_mem hk)
  have hg : sizes.getD k 0 = sizes[k] := by simp [hk]
  have es := off_succ sizes k hk
  have hle := off_le_sum sizes (k + 1)
  have hlt := Nat.mod_lt (h k).length hsk
  have eidx : (if newest (sizes.getD k 0) (h k).length + 1 = (sizes[k] : Int) then (0 : Int) else newest (sizes.getD k 0) (h k).length + 1) =
      ((h k).length % sizes[k] : Nat) := by
    rw [hg]
    unfold newest
    by_cases h0 : (h k).length = 0
    · rw [h0]; simp
      try omega
    · rw [if_neg h0, ← mod_succ sizes[k] (h k).length hsk (by omega)]
      split <;> split <;> push_cast <;> omega
  have hlen := H.info.len
  have sl : ∀ j, slot j = 4 * (j : Int) + 4 := fun j => by unfold slot; omega
  obtain ⟨cs, p1, l1, s1, n1⟩ := put_ok b.cells (((off sizes k : Nat) : Int) + ((h k).length % sizes[k] : Nat)) (some v) (by omega)
    (by rw [H.len]; omega)
  obtain ⟨is, p2, l2, s2, n2⟩ := put_ok b.info (slot k + 2) (((h k).length % sizes[k] : Nat) : Int) (by rw [sl]; omega)
    (by rw [hlen, sl]; push_cast; omega)
  refine ⟨⟨is, cs⟩, ?_, ?_⟩
  · unfold push
    rw [H.info.index k hk, bind_ok, i32_ok _ (newest_bound _ _ (hg ▸ hsk)).1 (by have := (newest_bound (sizes.getD k 0) (h k).length (hg ▸ hsk)).2; rw [hg] at this ⊢; omega), bind_ok, H.info.size k hk hk, bind_ok]
    dsimp only
    rw [eidx, H.info.offset k hk, bind_ok, p1, bind_ok, p2, bind_ok]
    rfl
  · refine ⟨⟨by rw [l2, hlen], fun j hj => ?_, fun j hj hj' => ?_, fun j hj => ?_⟩, by rw [l1, H.len], fun j hj i hi hw => ?_⟩
    · rw [n2 _ (by rw [sl, sl]; omega), H.info.offset j hj]
    · rw [n2 _ (by rw [sl, sl]; omega), H.info.size j hj hj']
    · by_cases e : j = k
      · subst e
        rw [s2, hg, if_pos rfl, List.length_append]
        simp [newest]
      · rw [n2 _ (by rw [sl, sl]; omega), H.info.index j hj, if_neg e]
    · dsimp only at hi hw ⊢
      by_cases e : j = k
      · subst e
        simp only [if_pos, List.length_append, List.length_singleton] at hi hw ⊢
        by_cases hl : i < (h j).length
        · rw [n1 _ ?_, H.cells j hj i hl (by omega), List.getElem_append_left hl]
          have := mod_ne sizes[j] i (h j).length hl (by omega)
          omega
        · have : i = (h j).length := by omega
          subst this
          rw [show ((off sizes j + (h j).length % sizes[j] : Nat) : Int) = ((off sizes j : Nat) : Int) + ((h j).length % sizes[j] : Nat) by push_cast; rfl, s1]
          simp
      · simp only [if_neg e] at hi hw ⊢
        rw [n1 _ ?_, H.cells j hj i hi hw]
        have hsj : 1 ≤ sizes[j] := hs _ (List.getElem_mem hj)
        have e2 := off_succ sizes j hj
        have e3 := Nat.mod_lt i hsj
        rcases Nat.lt_or_gt_of_ne e with hlt' | hlt'
        · have := off_mono sizes (show j + 1 ≤ k by omega)
          omega
        · have := off_mono sizes (show k + 1 ≤ j by omega)
          omega

theorem pushes_ok {R : Type} {sizes : List Nat} (hs : ∀ s ∈ sizes, 1 ≤ s) (ht : sizes.sum ≤ 2147483647) : ∀ (ps : List (Nat × R)) (b : LocalBuf R) (h : Nat → List R), Holds b sizes h →
    (∀ p ∈ ps, p.1 < sizes.length) → ∃ b', b.pushes ps = .ok b' ∧ Holds b' sizes fun k => h k ++ pushedTo k ps
  | [], b, h, H, _ => ⟨b, rfl, by simpa [pushedTo] using H⟩
  | p :: ps, b, h, H, hp => by
    obtain ⟨b1, h1, H1⟩ := push_ok hs ht H p.1 (hp p (by simp)) p.2
    obtain ⟨b2, h2, H2⟩ := pushes_ok hs ht ps b1 _ H1 (fun q hq => hp q (by simp [hq]))
    refine ⟨b2, by unfold pushes at h2 ⊢; rw [List.foldlM_cons, h1, bind_ok, h2], ?_⟩
    have e : (fun k => (if k = p.1 then h p.1 ++ [p.2] else h k) ++ pushedTo k ps) = fun k => h k ++ pushedTo k (p :: ps) := by
      funext k
      unfold pushedTo
      by_cases ek : k = p.1
      · subst ek; simp
      · have : ¬ p.1 = k := fun h => ek h.symm
        simp [ek, this]
    rwa [e] at H2

theorem back_mod (s n d : Nat) (hs : 1 ≤ s) (hd : d < s) (hn : d < n) :
    ((n - 1 - d) % s : Nat) = if d ≤ (n - 1) % s then (n - 1) % s - d else (n - 1) % s + s - d := by
  have h1 := Nat.mod_lt (n - 1) hs
  have h2 := Nat.div_add_mod (n - 1) s
  split
  · have : n - 1 - d = s * ((n - 1) / s) + ((n - 1) % s - d) := by omega
    rw [this, Nat.mul_add_mod, Nat.mod_eq_of_lt (by omega)]
  · rename_i h
    have hq : 1 ≤ (n - 1) / s := by
      by_contra hc
      have h0 : (n - 1) / s = 0 := by
        generalize (n - 1) / s = q at hc
        omega
      rw [h0, Nat.mul_zero] at h2; omega
    have e : s * ((n - 1) / s) = s * ((n - 1) / s - 1) + s := by
      conv_lhs => rw [show (n - 1) / s = ((n - 1) / s - 1) + 1 by omega, Nat.mul_add, Nat.mul_one]
    have : n - 1 - d = s * ((n - 1) / s - 1) + ((n - 1) % s + s - d) := by omega
    rw [this, Nat.mul_add_mod, Nat.mod_eq_of_lt (by omega)]

theorem cell_ok {R : Type} {b : LocalBuf R} {sizes : List Nat} {h : Nat → List R} (hs : ∀ s ∈ sizes, 1 ≤ s) (ht : sizes.sum ≤ 2147483647) (H : Holds b sizes h) (k : Nat)
    (hk : k < sizes.length) (d : Nat) (hd : d < sizes[k]) (hn : d < (h k).length) :
    b.at_ k (-(d : Int)) = .ok ((h k)[(h k).length - 1 - d]) ∧ (sizes[k] ≤ 1073741824 → b.at1 k (-(d : Int)) = .ok ((h k)[(h k).length - 1 - d])) := by
  have hle := off_le_sum sizes (k + 1)
  rw [off_succ sizes k hk] at hle
  have hsk : 1 ≤ sizes[k] := hs _ (List.getElem_mem hk)
  have hg : sizes.getD k 0 = sizes[k] := by simp [hk]
  have hc := H.cells k hk ((h k).length - 1 - d) (by omega) (by omega)
  have hm := back_mod sizes[k] (h k).length d hsk hd hn
  have hlt := Nat.mod_lt ((h k).length - 1) hsk
  have hcell : b.cell ((off sizes k : Int) + (((h k).length - 1 - d) % sizes[k] : Nat)) = .ok ((h k)[(h k).length - 1 - d]) := by
    unfold cell
    rw [show (off sizes k : Int) + (((h k).length - 1 - d) % sizes[k] : Nat) = ((off sizes k + ((h k).length - 1 - d) % sizes[k] : Nat) : Int) by
      push_cast; rfl, hc, bind_ok]
  have hnew : newest (sizes.getD k 0) (h k).length = (((h k).length - 1) % sizes[k] : Nat) := by
    rw [hg]; unfold newest; rw [if_neg (by omega)]
  constructor
  · unfold at_
    rw [H.info.size k hk hk, bind_ok, H.info.index k hk, bind_ok, hnew, i32_ok _ (by omega) (by omega), bind_ok]
    rw [lower, if_neg (by omega), bind_ok]
    by_cases hle : d ≤ ((h k).length - 1) % sizes[k]
    · rw [if_pos hle] at hm
      rw [raise, if_neg (by omega), bind_ok, H.info.offset k hk, bind_ok, ← hcell, hm]
      congr 1; omega
    · rw [if_neg hle] at hm
      rw [raise, if_pos (by omega), dif_pos (by omega), raise, if_neg (by omega), bind_ok, H.info.offset k hk, bind_ok, ← hcell, hm]
      congr 1; omega
  · intro hbig
    unfold at1
    rw [H.info.size k hk hk, bind_ok, H.info.index k hk, bind_ok, hnew, i32_ok _ (by omega) (by omega), bind_ok, i32_ok _ (by omega) (by omega),
      bind_ok, if_neg (by omega), H.info.offset k hk, bind_ok, ← hcell]
    congr 2
    rw [Int.tmod_eq_emod_of_nonneg (by omega)]
    have : ((((h k).length - 1) % sizes[k] : Nat) : Int) + -(d : Int) + (sizes[k] : Int) = (((h k).length - 1) % sizes[k] + sizes[k] - d : Nat) := by omega
    rw [this, ← Int.natCast_mod, hm]
    congr 1
    split
    · rw [show ((h k).length - 1) % sizes[k] + sizes[k] - d = (((h k).length - 1) % sizes[k] - d) + sizes[k] by omega, Nat.add_mod_right,
        Nat.mod_eq_of_lt (by omega)]
    · rw [Nat.mod_eq_of_lt (by omega)]

theorem cell_fwd {R : Type} {b : LocalBuf R} {sizes : List Nat} {h : Nat → List R} (hs : ∀ s ∈ sizes, 1 ≤ s) (ht : sizes.sum ≤ 2147483647) (H : Holds b sizes h) (k : Nat)
    (hk : k < sizes.length) (d e : Nat) (he : 1 ≤ e) (hd : e + d = sizes[k]) (hbig : sizes[k] ≤ 1073741824) (hn : d < (h k).length) :
    b.at_ k (e : Int) = .ok ((h k)[(h k).length - 1 - d]) := by
  have hle := off_le_sum sizes (k + 1)
  rw [off_succ sizes k hk] at hle
  have hsk : 1 ≤ sizes[k] := hs _ (List.getElem_mem hk)
  have hg : sizes.getD k 0 = sizes[k] := by simp [hk]
  have hc := H.cells k hk ((h k).length - 1 - d) (by omega) (by omega)
  have hm := back_mod sizes[k] (h k).length d hsk (by omega) hn
  have hlt := Nat.mod_lt ((h k).length - 1) hsk
  have hcell : b.cell ((off sizes k : Int) + (((h k).length - 1 - d) % sizes[k] : Nat)) = .ok ((h k)[(h k).length - 1 - d]) := by
    unfold cell
    rw [show (off sizes k : Int) + (((h k).length - 1 - d) % sizes[k] : Nat) = ((off sizes k + ((h k).length - 1 - d) % sizes[k] : Nat) : Int) by
      push_cast; rfl, hc, bind_ok]
  have hnew : newest (sizes.getD k 0) (h k).length = (((h k).length - 1) % sizes[k] : Nat) := by
    rw [hg]; unfold newest; rw [if_neg (by omega)]
  unfold at_
  rw [H.info.size k hk hk, bind_ok, H.info.index k hk, bind_ok, hnew, i32_ok _ (by omega) (by omega), bind_ok]
  by_cases hle : d ≤ ((h k).length - 1) % sizes[k]
  · rw [if_pos hle] at hm
    rw [lower, if_pos (by omega), dif_pos (by omega), lower, if_neg (by omega), bind_ok, raise, if_neg (by omega), bind_ok, H.info.offset k hk, bind_ok, ← hcell, hm]
    congr 1; omega
  · rw [if_neg hle] at hm
    rw [lower, if_neg (by omega), bind_ok, raise, if_neg (by omega), bind_ok, H.info.offset k hk, bind_ok, ← hcell, hm]
    congr 1; omega

theorem at1_overflows {R : Type} {b : LocalBuf R} {sizes : List Nat} {h : Nat → List R} (hs : ∀ s ∈ sizes, 1 ≤ s) (H : Holds b sizes h) (ht : sizes.sum ≤ 2147483647) (k : Nat)
    (hk : k < sizes.length) (hn : h k ≠ []) (hbig : 2147483647 < ((h k).length - 1) % sizes[k] + sizes[k]) : b.at1 k 0 = .error .intRange := by
  have hle := off_le_sum sizes (k + 1)
  rw [off_succ sizes k hk] at hle
  have hg : sizes.getD k 0 = sizes[k] := by simp [hk]
  have hlt := Nat.mod_lt ((h k).length - 1) (hs _ (List.getElem_mem hk))
  have hnew : newest (sizes.getD k 0) (h k).length = (((h k).length - 1) % sizes[k] : Nat) := by
    rw [hg]; unfold newest; rw [if_neg (by have := List.length_pos_iff.2 hn; omega)]
  unfold at1
  rw [H.info.size k hk hk, bind_ok, H.info.index k hk, bind_ok, hnew, i32_ok _ (by omega) (by omega), bind_ok]
  unfold i32
  rw [if_neg (by omega)]
  rfl

end Verif.LocalBuf
