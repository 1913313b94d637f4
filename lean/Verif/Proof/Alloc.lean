/- Proofs about `Model/Alloc.lean`. -/
import Verif.Spec.Alloc
import Verif.Core.Loops

namespace Verif.Alloc
set_option linter.unusedVariables false
set_option linter.unusedSimpArgs false
open Spec

/-- What a stream owns is what was added to the heap since `base`. -/
def Owns (o : Obj) (h : Heap) (base : List Nat) : Prop := h.live = o.owned ++ o.self :: base

theorem releaseAll_append (bs base : List Nat) (n : Nat) : releaseAll bs ⟨n, bs ++ base⟩ = .ok ⟨n, base⟩ := by
  induction bs with
  | nil => rfl
  | cons b bs ih =>
    unfold releaseAll release
    simp only [List.cons_append, List.mem_cons, true_or, if_true, List.erase_cons_head]
    exact ih

theorem delete_ok {o : Obj} {h : Heap} {base : List Nat} (H : Owns o h base) : delete o h = .ok ⟨h.asked, base⟩ := by
  obtain ⟨n, l⟩ := h
  unfold Owns at H
  dsimp only at H
  subst H
  have := releaseAll_append (o.owned ++ [o.self]) base n
  unfold delete
  simpa using this

theorem grow_owns (e : Env) (n : Nat) : ∀ (o : Obj) (h : Heap) (base : List Nat), Owns o h base → Owns (grow e n o h).2.1 (grow e n o h).2.2 base := by
  induction n with
  | zero => intro o h base H; exact H
  | succ n ih =>
    intro o h base H
    unfold grow alloc
    split
    · rename_i hh h' heq
      split at heq
      · cases heq; exact H
      · cases heq
    · rename_i b h' heq
      split at heq
      · cases heq
      · cases heq
        apply ih
        unfold Owns at H ⊢
        simp [H]

/-- Statements that keep track of everything even when an exception leaves the function. -/
def tidy : List Cmd → Bool
  | [] => true
  | .guarded _ .delete :: cs => tidy cs
  | _ => false

/-- Statements that keep track of everything as long as the function returns. -/
def tidyReturns : List Cmd → Bool
  | [] => true
  | .guarded _ .delete :: cs => tidyReturns cs
  | .member :: cs => tidyReturns cs
  | _ => false

/-- After the checks and the object. -/
def opens (rest : List Cmd → Bool) : List Cmd → Bool
  | .check :: cs => opens rest cs
  | .object _ _ :: cs => rest cs
  | _ => false

/-- The goal of `CleanWhen` for an outcome. -/
def Good (base : List Nat) : M (End × Heap) → Prop
  | .ok (.made o, h') => Owns o h' base
  | .ok (_, h') => h'.live = base
  | .error _ => False

/-- The goal of `CleanReturns` for an outcome. -/
def GoodReturns (base : List Nat) : M (End × Heap) → Prop
  | .ok (.made o, h') => Owns o h' base
  | .ok (.thrown, _) => True
  | .ok (_, h') => h'.live = base
  | .error _ => False

theorem tidy_good (e : Env) (base : List Nat) : ∀ (cs : List Cmd) (o : Obj) (h : Heap), tidy cs = true → Owns o h base → Good base (exec e cs (some o) h)
  | [], o, h, _, H => H
  | .guarded n .delete :: cs, o, h, ht, H => by
    have hg := grow_owns e n o h base H
    unfold exec
    dsimp only
    rcases hgr : grow e n o h with ⟨f, o', h'⟩
    rw [hgr] at hg
    cases f with
    | false =>
      dsimp only
      rw [delete_ok hg]
      rfl
    | true => exact tidy_good e base cs o' h' ht hg
  | .guarded _ .keep :: cs, o, h, ht, H => by cases ht
  | .guarded _ .deleteBase :: cs, o, h, ht, H => by cases ht
  | .member :: cs, o, h, ht, H => by cases ht
  | .check :: cs, o, h, ht, H => by cases ht
  | .object _ _ :: cs, o, h, ht, H => by cases ht

theorem tidyReturns_good (e : Env) (base : List Nat) : ∀ (cs : List Cmd) (o : Obj) (h : Heap), tidyReturns cs = true → Owns o h base →
    GoodReturns base (exec e cs (some o) h)
  | [], o, h, _, H => H
  | .guarded n .delete :: cs, o, h, ht, H => by
    have hg := grow_owns e n o h base H
    unfold exec
    dsimp only
    rcases hgr : grow e n o h with ⟨f, o', h'⟩
    rw [hgr] at hg
    cases f with
    | false =>
      dsimp only
      rw [delete_ok hg]
      rfl
    | true => exact tidyReturns_good e base cs o' h' ht hg
  | .guarded _ .keep :: cs, o, h, ht, H => by cases ht
  | .guarded _ .deleteBase :: cs, o, h, ht, H => by cases ht
  | .member :: cs, o, h, ht, H => by
    have hg := grow_owns e 1 o h base H
    unfold exec
    dsimp only
    rcases hgr : grow e 1 o h with ⟨f, o', h'⟩
    rw [hgr] at hg
    cases f with
    | false => trivial
    | true => exact tidyReturns_good e base cs o' h' ht hg
  | .check :: cs, o, h, ht, H => by cases ht
  | .object _ _ :: cs, o, h, ht, H => by cases ht

theorem opens_good (e : Env) (rest : List Cmd → Bool) (G : List Nat → M (End × Heap) → Prop)
    (hret : ∀ base n, G base (.ok (.returned, ⟨n, base⟩))) (hoom : ∀ base n, G base (.ok (.oom, ⟨n, base⟩)))
    (hthr : ∀ base n, G base (.ok (.thrown, ⟨n, base⟩)))
    (hrest : ∀ cs o h base, rest cs = true → Owns o h base → G base (exec e cs (some o) h)) :
    ∀ (cs : List Cmd) (h : Heap), opens rest cs = true → G h.live (exec e cs none h)
  | [], h, ht => by cases ht
  | .check :: cs, h, ht => by
    unfold exec
    split
    · exact hret _ _
    · exact opens_good e rest G hret hoom hthr hrest cs h ht
  | .member :: cs, h, ht => by cases ht
  | .guarded _ _ :: cs, h, ht => by cases ht
  | .object nt c :: cs, h, ht => by
    unfold exec alloc
    cases hf : e.fails h.asked with
    | true =>
      simp only [if_true]
      cases nt
      · exact hthr _ _
      · exact hoom _ _
    | false =>
      simp only [Bool.false_eq_true, if_false]
      have hg := grow_owns e (c * e.perContainer) ⟨h.asked, []⟩ ⟨h.asked + 1, h.asked :: h.live⟩ h.live rfl
      rcases hgr : grow e (c * e.perContainer) ⟨h.asked, []⟩ ⟨h.asked + 1, h.asked :: h.live⟩ with ⟨f, o', h'⟩
      rw [hgr] at hg
      cases f with
      | false =>
        dsimp only
        rw [delete_ok hg]
        exact hthr _ _
      | true => exact hrest _ _ _ _ ht hg

theorem clean_of {m : StreamMem} (h : opens tidy m.new = true) (hf : m.freesBase = false) : Clean m := by
  intro e hp _ _
  have hg := opens_good e tidy Good (fun _ _ => rfl) (fun _ _ => rfl) (fun _ _ => rfl)
    (fun cs o h base => tidy_good e base cs o h) m.new hp h
  unfold StreamMem.open_
  rcases hx : exec e m.new none hp with u | ⟨en, h'⟩
  · rw [hx] at hg; exact hg
  · rw [hx] at hg
    cases en with
    | made o => exact ⟨⟨h'.asked, hp.live⟩, by unfold StreamMem.free; rw [hf]; exact delete_ok hg, rfl⟩
    | _ => exact hg

theorem cleanReturns_of {m : StreamMem} (h : opens tidyReturns m.new = true) (hf : m.freesBase = false) : CleanReturns m := by
  intro e hp _
  have hg := opens_good e tidyReturns GoodReturns (fun _ _ => rfl) (fun _ _ => rfl) (fun _ _ => trivial)
    (fun cs o h base => tidyReturns_good e base cs o h) m.new hp h
  unfold StreamMem.open_
  rcases hx : exec e m.new none hp with u | ⟨en, h'⟩
  · rw [hx] at hg; exact hg
  · rw [hx] at hg
    cases en with
    | made o => exact ⟨⟨h'.asked, hp.live⟩, by unfold StreamMem.free; rw [hf]; exact delete_ok hg, rfl⟩
    | _ => exact hg

/-- Statements that keep track of everything as long as nothing fails. -/
def tidyLucky : List Cmd → Bool
  | [] => true
  | .guarded _ _ :: cs => tidyLucky cs
  | .member :: cs => tidyLucky cs
  | _ => false

theorem grow_lucky (e : Env) (he : ∀ n, e.fails n = false) (n : Nat) : ∀ (o : Obj) (h : Heap), (grow e n o h).1 = true := by
  induction n with
  | zero => intro o h; rfl
  | succ n ih =>
    intro o h
    unfold grow alloc
    rw [he]
    exact ih _ _

theorem tidyLucky_good (e : Env) (he : ∀ n, e.fails n = false) (base : List Nat) : ∀ (cs : List Cmd) (o : Obj) (h : Heap), tidyLucky cs = true → Owns o h base →
    Good base (exec e cs (some o) h)
  | [], o, h, _, H => H
  | .guarded n hd :: cs, o, h, ht, H => by
    have hg := grow_owns e n o h base H
    have hl := grow_lucky e he n o h
    unfold exec
    dsimp only
    rcases hgr : grow e n o h with ⟨f, o', h'⟩
    rw [hgr] at hg hl
    dsimp only at hl
    subst hl
    exact tidyLucky_good e he base cs o' h' ht hg
  | .member :: cs, o, h, ht, H => by
    have hg := grow_owns e 1 o h base H
    have hl := grow_lucky e he 1 o h
    unfold exec
    dsimp only
    rcases hgr : grow e 1 o h with ⟨f, o', h'⟩
    rw [hgr] at hg hl
    dsimp only at hl
    subst hl
    exact tidyLucky_good e he base cs o' h' ht hg
  | .check :: cs, o, h, ht, H => by cases ht
  | .object _ _ :: cs, o, h, ht, H => by cases ht

theorem cleanLucky_of {m : StreamMem} (h : opens tidyLucky m.new = true) (hf : m.freesBase = false) : CleanWhen (fun e => ∀ n, e.fails n = false) m := by
  intro e hp he _
  have hg := opens_good e tidyLucky Good (fun _ _ => rfl) (fun _ _ => rfl) (fun _ _ => rfl)
    (fun cs o h base => tidyLucky_good e he base cs o h) m.new hp h
  unfold StreamMem.open_
  rcases hx : exec e m.new none hp with u | ⟨en, h'⟩
  · rw [hx] at hg; exact hg
  · rw [hx] at hg
    cases en with
    | made o => exact ⟨⟨h'.asked, hp.live⟩, by unfold StreamMem.free; rw [hf]; exact delete_ok hg, rfl⟩
    | _ => exact hg

/-- The request number `n` fails, nothing else, the options are good and containers ask for no blocks. -/
def nth (n : Nat) : Env := ⟨fun k => k == n, false, 0⟩

/-- Was something left behind, or something undefined done, starting from the empty heap? -/
def messy (m : StreamMem) (e : Env) : Bool :=
  match m.open_ e ⟨0, []⟩ with
  | .ok (.made o, h') =>
    match m.free o h' with
    | .ok h'' => !h''.live.isEmpty
    | .error _ => true
  | .ok (_, h') => !h'.live.isEmpty
  | .error _ => true

theorem not_clean {m : StreamMem} (e : Env) (hm : messy m e = true) : ¬ Clean m := by
  intro hc
  have := hc e ⟨0, []⟩ trivial ⟨List.nodup_nil, fun b hb => by cases hb⟩
  unfold messy at hm
  revert this hm
  rcases m.open_ e ⟨0, []⟩ with u | ⟨en, h'⟩
  · intro _ h; exact h
  · cases en with
    | made o =>
      rintro hm ⟨h'', hh, hl⟩
      dsimp only at hm
      rw [hh] at hm
      dsimp only at hm hl
      rw [hl] at hm
      cases hm
    | _ =>
      intro hm hl
      dsimp only at hm hl
      rw [hl] at hm
      cases hm

end Verif.Alloc
