/- C08: local buffers laid out in one block. -/
import Verif.Proof.LocalBuf
import Verif.Core.RatInst

namespace Verif
open Spec

/-- C08: any number of buffers of any positive sizes (whose total fits an `int`) and any interleaving of pushes: nothing undefined
happens, and both ways of reading buffer `k` with offset `-d` give the value pushed to `k` (and not to any other buffer) `d` pushes to `k` ago.
What is missing: `BUFFER_AT1` of a buffer of more than 2^30 cells, see `localbuf_at1_violates`. -/
theorem localbuf_remembers_partial {R : Type} (sizes : List Nat) (hm : sizes ≠ []) (hs : ∀ s ∈ sizes, 1 ≤ s) (ht : sizes.sum ≤ 2147483647)
    (ps : List (Nat × R)) (hp : ∀ p ∈ ps, p.1 < sizes.length) :
    ∃ b, (LocalBuf.make (sizes.map fun s : Nat => (s : Int))).bind (fun b => b.pushes ps) = .ok b ∧
      ∀ k (hk : k < sizes.length) (d : Nat), d < sizes[k] → (hd : d < (pushedTo k ps).length) →
        b.at_ k (-(d : Int)) = .ok ((pushedTo k ps)[(pushedTo k ps).length - 1 - d]) ∧
        (sizes[k] ≤ 1073741824 → b.at1 k (-(d : Int)) = .ok ((pushedTo k ps)[(pushedTo k ps).length - 1 - d])) := by
  obtain ⟨info, h, H⟩ := LocalBuf.make_ok (R := R) sizes hm ht
  have H0 : LocalBuf.Holds (R := R) ⟨info, List.replicate sizes.sum none⟩ sizes fun _ => [] :=
    ⟨⟨H.len, H.offset, H.size, fun k hk => by rw [H.index k hk]; simp [LocalBuf.newest]⟩, by simp, fun k hk j hj => by simp at hj⟩
  obtain ⟨b, hb, HB⟩ := LocalBuf.pushes_ok hs ht ps _ _ H0 hp
  refine ⟨b, by rw [h]; exact hb, fun k hk d hd hn => ?_⟩
  have := LocalBuf.cell_ok hs ht HB k hk d hd (by simpa using hn)
  simpa using this

/-- C08: `BUFFER_AT1` adds the size to the index before it reduces the sum, so the newest value of a full buffer of more than 2^30 cells
cannot be read: the sum overflows `int`. (`ps` may be any pushes that end with that buffer full for the first time.) -/
theorem localbuf_at1_violates {R : Type} (sizes : List Nat) (hm : sizes ≠ []) (hs : ∀ s ∈ sizes, 1 ≤ s) (ht : sizes.sum ≤ 2147483647)
    (ps : List (Nat × R)) (hp : ∀ p ∈ ps, p.1 < sizes.length) (k : Nat) (hk : k < sizes.length) (hbig : 1073741824 < sizes[k])
    (hfull : (pushedTo k ps).length = sizes[k]) :
    (LocalBuf.make (sizes.map fun s : Nat => (s : Int))).bind (fun b => (b.pushes ps).bind fun b => b.at1 k 0) = .error .intRange := by
  obtain ⟨info, h, H⟩ := LocalBuf.make_ok (R := R) sizes hm ht
  have H0 : LocalBuf.Holds (R := R) ⟨info, List.replicate sizes.sum none⟩ sizes fun _ => [] :=
    ⟨⟨H.len, H.offset, H.size, fun k hk => by rw [H.index k hk]; simp [LocalBuf.newest]⟩, by simp, fun k hk j hj => by simp at hj⟩
  obtain ⟨b, hb, HB⟩ := LocalBuf.pushes_ok hs ht ps _ _ H0 hp
  simp only [List.nil_append] at HB
  have := LocalBuf.at1_overflows hs HB ht k hk (by intro e; rw [e] at hfull; simp at hfull; omega)
    (by rw [hfull, Nat.mod_eq_of_lt (by omega)]; omega)
  rw [h]
  change (LocalBuf.pushes _ ps).bind _ = _
  rw [hb]
  exact this

/-- Such a buffer and such pushes exist. -/
example : ∃ ps : List (Nat × ℚ), (∀ p ∈ ps, p.1 < [1073741825].length) ∧ (pushedTo 0 ps).length = 1073741825 := by
  have h : ∀ n, (∀ p ∈ List.replicate n (0, (1 : ℚ)), p.1 < 1) ∧ (pushedTo 0 (List.replicate n (0, (1 : ℚ)))).length = n := fun n =>
    ⟨fun p hp => by rw [List.eq_of_mem_replicate hp]; decide, by simp [pushedTo]⟩
  exact ⟨_, h _⟩

/-- C08: the block that is allocated holds exactly the cells of the buffers. -/
theorem localbuf_size {R : Type} (sizes : List Nat) (hm : sizes ≠ []) (ht : sizes.sum ≤ 2147483647) :
    ∃ info, LocalBuf.make (R := R) (sizes.map fun s : Nat => (s : Int)) = .ok ⟨info, List.replicate sizes.sum none⟩ ∧
      ∀ k (hk : k < sizes.length), rd info (LocalBuf.slot k) = .ok (((sizes.take k).sum : Nat) : Int) := by
  obtain ⟨info, h, H⟩ := LocalBuf.make_ok (R := R) sizes hm ht
  exact ⟨info, h, fun k hk => H.offset k hk⟩

/-- C08: `BUFFER_AT` counts round: offset `e` of a buffer of `e + d` cells is offset `-d`. In particular `BUFFER_AT(…, 1)` of a full buffer is
its oldest value. For buffers of up to 2^30 cells. -/
theorem localbuf_forward {R : Type} (sizes : List Nat) (hm : sizes ≠ []) (hs : ∀ s ∈ sizes, 1 ≤ s) (ht : sizes.sum ≤ 2147483647)
    (ps : List (Nat × R)) (hp : ∀ p ∈ ps, p.1 < sizes.length) :
    ∃ b, (LocalBuf.make (sizes.map fun s : Nat => (s : Int))).bind (fun b => b.pushes ps) = .ok b ∧
      ∀ k (hk : k < sizes.length) (d e : Nat), 1 ≤ e → e + d = sizes[k] → sizes[k] ≤ 1073741824 → (hd : d < (pushedTo k ps).length) →
        b.at_ k (e : Int) = .ok ((pushedTo k ps)[(pushedTo k ps).length - 1 - d]) := by
  obtain ⟨info, h, H⟩ := LocalBuf.make_ok (R := R) sizes hm ht
  have H0 : LocalBuf.Holds (R := R) ⟨info, List.replicate sizes.sum none⟩ sizes fun _ => [] :=
    ⟨⟨H.len, H.offset, H.size, fun k hk => by rw [H.index k hk]; simp [LocalBuf.newest]⟩, by simp, fun k hk j hj => by simp at hj⟩
  obtain ⟨b, hb, HB⟩ := LocalBuf.pushes_ok hs ht ps _ _ H0 hp
  refine ⟨b, by rw [h]; exact hb, fun k hk d e he hd hbig hn => ?_⟩
  have := LocalBuf.cell_fwd hs ht HB k hk d e he hd hbig (by simpa using hn)
  simpa using this

/-- Two buffers of 2 and 3 cells; five interleaved pushes; the oldest value kept in each. -/
example : (do let b ← (← LocalBuf.make (R := ℚ) [2, 3]).pushes [(0, 1), (1, 10), (0, 2), (1, 20), (0, 3)]
              return (← b.at_ 0 (-1), ← b.at1 0 (-1), ← b.at_ 1 (-1), ← b.at1 1 0)) = .ok (2, 2, 10, 20) := by decide +kernel

/-- A buffer of 1 cell and one of 3, read with positive offsets. -/
example : (do let b ← (← LocalBuf.make (R := ℚ) [1, 3]).pushes [(0, 1), (1, 10), (1, 20), (0, 2), (1, 30), (1, 40)]
              return (← b.at_ 0 1, ← b.at_ 1 1, ← b.at_ 1 2, ← b.at_ 1 3)) = .ok (2, 20, 30, 40) := by decide +kernel

end Verif
