/- From value theorems to windows. -/
import Verif.Spec.Memory
import Verif.Spec.Contract

namespace Verif.Memory
variable {R ρ ω : Type}

theorem pre_drop {α : Type} (x : Nat → α) (N k : Nat) : (pre x N).drop k = pre (fun i => x (i + k)) (N - k) := by
  refine List.ext_getElem (by simp [pre]) fun i h1 h2 => ?_
  simp [pre, Nat.add_comm]

/-- From the values to the calls. -/
theorem windowed {batch : (Nat → R) → List ρ → M (Ret × List ω)} {o : Nat → R} {s : Nat} [Inhabited ρ] {val : (Nat → ρ) → Nat → ω}
    (hc : Computes batch o s val) (h : ∀ x k j, val (fun i => x (i + k)) j = val x (j + k)) : Windowed batch o := fun xs _ => by
  obtain ⟨x, e⟩ := exists_pre xs
  refine ⟨pre (val x) (xs.length - s), ?_, fun k _ => ?_⟩
  · rw [e]; simpa [pre] using hc x xs.length
  · rw [e, pre_drop, hc, pre_drop]
    simp only [List.length_map, List.length_range, pre]
    rw [Nat.sub_right_comm, funext (h x k)]

/-- Values that are determined by a relation between input and output. -/
theorem windowed_rel {batch : (Nat → R) → List ρ → M (Ret × List ω)} {o : Nat → R} {s : Nat} [Inhabited ρ] {rel : (Nat → ρ) → Nat → ω → Prop}
    (hc : ∀ x N, ∃ y, batch o (pre x N) = .ok (.okay, pre y (N - s)) ∧ ∀ j, rel x j (y j))
    (h : ∀ x k j w, rel (fun i => x (i + k)) j w → rel x (j + k) w) (hu : ∀ x j w w', rel x j w → rel x j w' → w = w') : Windowed batch o := fun xs _ => by
  obtain ⟨x, e⟩ := exists_pre xs
  obtain ⟨y, h1, h2⟩ := hc x xs.length
  rw [← e] at h1
  refine ⟨_, h1, fun k _ => ?_⟩
  obtain ⟨z, h3, h4⟩ := hc (fun i => x (i + k)) (xs.length - k)
  have e' : xs.drop k = pre (fun i => x (i + k)) (xs.length - k) := by
    conv_lhs => rw [e]
    exact pre_drop _ _ _
  rw [e', h3, pre_drop, Nat.sub_right_comm]
  congr 3
  exact funext fun j => hu _ _ _ _ (h _ _ _ _ (h4 j)) (h2 _)

end Verif.Memory
