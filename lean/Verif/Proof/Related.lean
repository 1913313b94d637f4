/-
Output lists of several calls compared position by position.
-/
import Verif.Core.StreamLemmas
import Mathlib.Data.List.Forall2

namespace Verif.Related
variable {α β γ δ : Type}

theorem pre_eq {u v : Nat → α} {n m : Nat} (h : n = m) (h' : ∀ j, u j = v j) : pre u n = pre v m := by
  subst h
  exact congrArg (pre · n) (funext h')

theorem map_pre (f : α → β) (x : Nat → α) (n : Nat) : (pre x n).map f = pre (fun i => f (x i)) n := by simp [pre]

theorem drop_pre (x : Nat → α) (n k : Nat) : (pre x n).drop k = pre (fun i => x (i + k)) (n - k) :=
  List.ext_getElem (by simp [pre]) fun i h1 h2 => by simp [pre, Nat.add_comm]

theorem zip_pre (f : α → β → γ) (x : Nat → α) (y : Nat → β) (n m : Nat) :
    List.zipWith f (pre x n) (pre y m) = pre (fun i => f (x i) (y i)) (min n m) :=
  List.ext_getElem (by simp) fun i h1 h2 => by simp [pre]

theorem forall_pre {P : α → β → Prop} {x : Nat → α} {y : Nat → β} {n m : Nat} (h : n = m) (h' : ∀ j, P (x j) (y j)) : List.Forall₂ P (pre x n) (pre y m) := by
  subst h
  exact List.forall₂_iff_get.2 ⟨by simp, fun i h1 h2 => by simpa [pre] using h' i⟩

end Verif.Related
