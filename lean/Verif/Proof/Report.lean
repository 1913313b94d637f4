/- Proofs about how stream constructors answer when memory cannot be had. -/
import Verif.Spec.Report
import Verif.Proof.Alloc

namespace Verif.Alloc
open Spec

/-- The goal of `ReportsWhen` for an outcome. -/
def Rep (e : Env) (h : Heap) : M (End × Heap) → Prop
  | .ok (.oom, h') => Short e h h'
  | .ok (.thrown, _) => False
  | .ok (_, h') => ¬ Short e h h'
  | .error _ => False

theorem grow_count (e : Env) (h0 : Heap) (n : Nat) : ∀ (o : Obj) (h : Heap), h0.asked ≤ h.asked → ¬ Short e h0 h →
    h.asked ≤ (grow e n o h).2.2.asked ∧ ((grow e n o h).1 = true → ¬ Short e h0 (grow e n o h).2.2) ∧
      ((grow e n o h).1 = false → Short e h0 (grow e n o h).2.2 ∧ ∃ k, h.asked ≤ k ∧ e.fails k = true) := by
  induction n with
  | zero => intro o h _ hs; exact ⟨Nat.le_refl _, fun _ => hs, fun hf => by cases hf⟩
  | succ n ih =>
    intro o h hle hs
    unfold grow alloc
    cases hf : e.fails h.asked with
    | true =>
      simp only [if_true]
      exact ⟨Nat.le_succ _, fun hc => (by cases hc), fun _ => ⟨⟨h.asked, hle, Nat.lt_succ_self _, hf⟩, h.asked, Nat.le_refl _, hf⟩⟩
    | false =>
      simp only [Bool.false_eq_true, if_false]
      have hs' : ¬ Short e h0 ⟨h.asked + 1, h.asked :: h.live⟩ := by
        rintro ⟨k, h1, h2, h3⟩
        rcases Nat.lt_succ_iff_lt_or_eq.mp h2 with h4 | h4
        · exact hs ⟨k, h1, h4, h3⟩
        · rw [h4, hf] at h3; cases h3
      obtain ⟨i1, i2, i3⟩ := ih ⟨o.self, h.asked :: o.owned⟩ ⟨h.asked + 1, h.asked :: h.live⟩ (Nat.le_succ_of_le hle) hs'
      refine ⟨Nat.le_trans (Nat.le_succ _) i1, i2, fun hc => ⟨(i3 hc).1, ?_⟩⟩
      obtain ⟨k, k1, k2⟩ := (i3 hc).2
      exact ⟨k, Nat.le_trans (Nat.le_succ _) k1, k2⟩

/-- Every request is inside a `try` whose handler does nothing undefined. -/
def answers : List Cmd → Bool
  | [] => true
  | .guarded _ .delete :: cs => answers cs
  | .guarded _ .keep :: cs => answers cs
  | _ => false

theorem answers_rep (e : Env) (h0 : Heap) (base : List Nat) : ∀ (cs : List Cmd) (o : Obj) (h : Heap), answers cs = true → Owns o h base →
    h0.asked ≤ h.asked → ¬ Short e h0 h → Rep e h0 (exec e cs (some o) h)
  | [], o, h, _, _, _, hs => hs
  | .guarded n .delete :: cs, o, h, ht, H, hle, hs => by
    have hg := grow_owns e n o h base H
    obtain ⟨c1, c2, c3⟩ := grow_count e h0 n o h hle hs
    unfold exec
    dsimp only
    rcases hgr : grow e n o h with ⟨f, o', h'⟩
    rw [hgr] at hg c1 c2 c3
    cases f with
    | false =>
      dsimp only
      rw [delete_ok hg]
      exact (c3 rfl).1
    | true => exact answers_rep e h0 base cs o' h' ht hg (Nat.le_trans hle c1) (c2 rfl)
  | .guarded n .keep :: cs, o, h, ht, H, hle, hs => by
    have hg := grow_owns e n o h base H
    obtain ⟨c1, c2, c3⟩ := grow_count e h0 n o h hle hs
    unfold exec
    dsimp only
    rcases hgr : grow e n o h with ⟨f, o', h'⟩
    rw [hgr] at hg c1 c2 c3
    cases f with
    | false => exact (c3 rfl).1
    | true => exact answers_rep e h0 base cs o' h' ht hg (Nat.le_trans hle c1) (c2 rfl)
  | .guarded _ .deleteBase :: cs, o, h, ht, H, _, _ => by cases ht
  | .member :: cs, o, h, ht, H, _, _ => by cases ht
  | .check :: cs, o, h, ht, H, _, _ => by cases ht
  | .object _ _ :: cs, o, h, ht, H, _, _ => by cases ht

theorem tidyLucky_rep (e : Env) (h0 : Heap) : ∀ (cs : List Cmd) (o : Obj) (h : Heap), tidyLucky cs = true →
    h0.asked ≤ h.asked → (∀ k, h.asked ≤ k → e.fails k = false) → ¬ Short e h0 h → Rep e h0 (exec e cs (some o) h)
  | [], o, h, _, _, _, hs => hs
  | .guarded n hd :: cs, o, h, ht, hle, hm, hs => by
    obtain ⟨c1, c2, c3⟩ := grow_count e h0 n o h hle hs
    unfold exec
    dsimp only
    rcases hgr : grow e n o h with ⟨f, o', h'⟩
    rw [hgr] at c1 c2 c3
    cases f with
    | false =>
      obtain ⟨k, k1, k2⟩ := (c3 rfl).2
      rw [hm k k1] at k2; cases k2
    | true => exact tidyLucky_rep e h0 cs o' h' ht (Nat.le_trans hle c1) (fun k hk => hm k (Nat.le_trans c1 hk)) (c2 rfl)
  | .member :: cs, o, h, ht, hle, hm, hs => by
    obtain ⟨c1, c2, c3⟩ := grow_count e h0 1 o h hle hs
    unfold exec
    dsimp only
    rcases hgr : grow e 1 o h with ⟨f, o', h'⟩
    rw [hgr] at c1 c2 c3
    cases f with
    | false =>
      obtain ⟨k, k1, k2⟩ := (c3 rfl).2
      rw [hm k k1] at k2; cases k2
    | true => exact tidyLucky_rep e h0 cs o' h' ht (Nat.le_trans hle c1) (fun k hk => hm k (Nat.le_trans c1 hk)) (c2 rfl)
  | .check :: cs, o, h, ht, _, _, _ => by cases ht
  | .object _ _ :: cs, o, h, ht, _, _, _ => by cases ht

theorem short_self (e : Env) (h : Heap) : ¬ Short e h h := by
  rintro ⟨k, h1, h2, _⟩
  exact absurd h2 (Nat.not_lt.mpr h1)

theorem short_one {e : Env} {h : Heap} (hf : e.fails h.asked = false) (l : List Nat) : ¬ Short e h ⟨h.asked + 1, l⟩ := by
  rintro ⟨k, h1, h2, h3⟩
  have : k = h.asked := Nat.le_antisymm (Nat.lt_succ_iff.mp h2) h1
  rw [this, hf] at h3; cases h3

/-- The object is tested for, and has no standard containers. -/
def tested : List Cmd → Bool
  | .check :: cs => tested cs
  | .object true 0 :: cs => answers cs
  | _ => false

theorem tested_rep (e : Env) : ∀ (cs : List Cmd) (h : Heap), tested cs = true → Rep e h (exec e cs none h)
  | [], h, ht => by cases ht
  | .check :: cs, h, ht => by
    unfold exec
    split
    · exact short_self e h
    · exact tested_rep e cs h ht
  | .member :: cs, h, ht => by cases ht
  | .guarded _ _ :: cs, h, ht => by cases ht
  | .object false _ :: cs, h, ht => by cases ht
  | .object true (_ + 1) :: cs, h, ht => by cases ht
  | .object true 0 :: cs, h, ht => by
    unfold exec alloc
    cases hf : e.fails h.asked with
    | true => exact ⟨h.asked, Nat.le_refl _, Nat.lt_succ_self _, hf⟩
    | false =>
      simp only [Bool.false_eq_true, if_false, Nat.zero_mul]
      exact answers_rep e h h.live cs _ _ ht rfl (Nat.le_succ _) (short_one hf _)

/-- The object has no standard containers. -/
def untested : List Cmd → Bool
  | .check :: cs => untested cs
  | .object _ 0 :: cs => answers cs
  | _ => false

theorem untested_rep (e : Env) : ∀ (cs : List Cmd) (h : Heap), FirstMet e h → untested cs = true → Rep e h (exec e cs none h)
  | [], h, _, ht => by cases ht
  | .check :: cs, h, hf, ht => by
    unfold exec
    split
    · exact short_self e h
    · exact untested_rep e cs h hf ht
  | .member :: cs, h, _, ht => by cases ht
  | .guarded _ _ :: cs, h, _, ht => by cases ht
  | .object _ (_ + 1) :: cs, h, _, ht => by cases ht
  | .object _ 0 :: cs, h, hf, ht => by
    unfold FirstMet at hf
    unfold exec alloc
    simp only [hf, Bool.false_eq_true, if_false, Nat.zero_mul]
    exact answers_rep e h h.live cs _ _ ht rfl (Nat.le_succ _) (short_one hf _)

/-- The object is tested for. -/
def testedLucky : List Cmd → Bool
  | .check :: cs => testedLucky cs
  | .object true _ :: cs => tidyLucky cs
  | _ => false

theorem testedLucky_rep (e : Env) : ∀ (cs : List Cmd) (h : Heap), OthersMet e h → testedLucky cs = true → Rep e h (exec e cs none h)
  | [], h, _, ht => by cases ht
  | .check :: cs, h, hf, ht => by
    unfold exec
    split
    · exact short_self e h
    · exact testedLucky_rep e cs h hf ht
  | .member :: cs, h, _, ht => by cases ht
  | .guarded _ _ :: cs, h, _, ht => by cases ht
  | .object false _ :: cs, h, _, ht => by cases ht
  | .object true c :: cs, h, ho, ht => by
    unfold exec alloc
    cases hf : e.fails h.asked with
    | true => exact ⟨h.asked, Nat.le_refl _, Nat.lt_succ_self _, hf⟩
    | false =>
      simp only [Bool.false_eq_true, if_false]
      obtain ⟨c1, c2, c3⟩ := grow_count e h (c * e.perContainer) ⟨h.asked, []⟩ ⟨h.asked + 1, h.asked :: h.live⟩ (Nat.le_succ _) (short_one hf _)
      rcases hgr : grow e (c * e.perContainer) ⟨h.asked, []⟩ ⟨h.asked + 1, h.asked :: h.live⟩ with ⟨f, o', h'⟩
      rw [hgr] at c1 c2 c3
      dsimp only at c1
      cases f with
      | false =>
        obtain ⟨k, k1, k2⟩ := (c3 rfl).2
        rw [ho k k1] at k2; cases k2
      | true => exact tidyLucky_rep e h cs o' h' ht (Nat.le_trans (Nat.le_succ _) c1) (fun k hk => ho k (Nat.le_trans c1 hk)) (c2 rfl)

theorem rep_when {P : Env → Heap → Prop} {m : StreamMem} (H : ∀ e h, P e h → Rep e h (exec e m.new none h)) : ReportsWhen P m := by
  intro e h hP
  have := H e h hP
  unfold StreamMem.open_
  rcases hx : exec e m.new none h with u | ⟨en, h'⟩
  · rw [hx] at this; exact this
  · rw [hx] at this
    cases en <;> exact this

theorem reports_of {m : StreamMem} (h : tested m.new = true) : Reports m := rep_when fun e hp _ => tested_rep e m.new hp h

theorem reportsFirst_of {m : StreamMem} (h : untested m.new = true) : ReportsWhen FirstMet m := rep_when fun e hp hP => untested_rep e m.new hp hP h

theorem reportsOthers_of {m : StreamMem} (h : testedLucky m.new = true) : ReportsWhen OthersMet m := rep_when fun e hp hP => testedLucky_rep e m.new hp hP h

end Verif.Alloc
