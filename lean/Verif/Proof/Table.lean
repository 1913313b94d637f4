/- Sorting and binary search of the indicator table (helper lemmas). -/
import Verif.Model.Table
import Verif.Core.Loops
import Mathlib.Data.List.Perm.Basic
import Mathlib.Data.List.Nodup
import Mathlib.Tactic.Common

set_option linter.unusedSimpArgs false
set_option linter.unusedVariables false

namespace Verif

theorem NulFree.cons {a : Nat} {s : Name} (h : NulFree (a :: s)) : 1 ≤ a ∧ NulFree s :=
  ⟨h a (by simp), fun b hb => h b (by simp [hb])⟩

theorem strcmp_eq_zero : ∀ {a b : Name}, NulFree a → NulFree b → (strcmp a b = 0 ↔ a = b)
  | [], [], _, _ => by simp [strcmp]
  | [], b :: bs, _, hb => by have := hb.cons.1; simp [strcmp]; omega
  | a :: as, [], ha, _ => by have := ha.cons.1; simp [strcmp]; omega
  | a :: as, b :: bs, ha, hb => by
    unfold strcmp
    split
    · next h => rw [strcmp_eq_zero ha.cons.2 hb.cons.2]; simp [h]
    · next h => simp only [List.cons.injEq, h, false_and, iff_false]; omega

theorem pyLe_iff : ∀ {a b : Name}, NulFree a → NulFree b → (pyLe a b = true ↔ strcmp a b ≤ 0)
  | [], [], _, _ => by simp [strcmp, pyLe]
  | [], b :: bs, _, hb => by simp [strcmp, pyLe]
  | a :: as, [], ha, _ => by have := ha.cons.1; simp [strcmp, pyLe]; omega
  | a :: as, b :: bs, ha, hb => by
    unfold strcmp pyLe
    by_cases h : a = b
    · subst h
      simp only [Nat.lt_irrefl, if_false, if_true]
      exact pyLe_iff ha.cons.2 hb.cons.2
    · rw [if_neg h]
      by_cases h1 : a < b
      · simp [h1]; omega
      · simp [h1, show b < a by omega]

theorem strcmp_neg_trans : ∀ {a b c : Name}, NulFree a → NulFree b → NulFree c →
    strcmp a b < 0 → strcmp b c < 0 → strcmp a c < 0
  | [], b, [], _, hb, _, h1, h2 => by
    cases b with
    | nil => exact h1
    | cons b bs => have := hb.cons.1; simp only [strcmp] at h2; omega
  | [], b, c :: cs, _, _, hc, _, _ => by have := hc.cons.1; simp only [strcmp]; omega
  | a :: as, [], c, ha, _, _, h1, _ => by have := ha.cons.1; simp only [strcmp] at h1; omega
  | a :: as, b :: bs, [], _, hb, _, _, h2 => by have := hb.cons.1; simp only [strcmp] at h2; omega
  | a :: as, b :: bs, c :: cs, ha, hb, hc, h1, h2 => by
    unfold strcmp at h1 h2 ⊢
    by_cases e1 : a = b
    · by_cases e2 : b = c
      · subst e1 e2
        simp only [if_true] at h1 h2 ⊢
        exact strcmp_neg_trans ha.cons.2 hb.cons.2 hc.cons.2 h1 h2
      · subst e1
        simp only [if_true, e2, if_false] at h1 h2 ⊢
        exact h2
    · simp only [e1, if_false] at h1
      by_cases e2 : b = c
      · subst e2; simp only [e1, if_false]; exact h1
      · simp only [e2, if_false] at h2
        rw [if_neg (by omega)]; omega

theorem strcmp_swap : ∀ a b : Name, strcmp b a = -strcmp a b
  | [], [] => by simp [strcmp]
  | [], b :: bs => by simp [strcmp]
  | a :: as, [] => by simp [strcmp]
  | a :: as, b :: bs => by
    unfold strcmp
    by_cases h : a = b
    · subst h; simp only [if_true]; exact strcmp_swap as bs
    · rw [if_neg h, if_neg (fun e => h e.symm)]; omega

variable {E : Type}

theorem pyInsert_perm (a : Name × E) : ∀ l : List (Name × E), (pyInsert a l).Perm (a :: l)
  | [] => by simp [pyInsert]
  | b :: bs => by
    unfold pyInsert
    split
    · rfl
    · exact ((pyInsert_perm a bs).cons b).trans (List.Perm.swap _ _ _)

theorem pySorted_perm : ∀ d : List (Name × E), (pySorted d).Perm d
  | [] => by simp [pySorted]
  | a :: d => by
    rw [pySorted, List.foldr_cons]
    exact (pyInsert_perm a _).trans ((pySorted_perm d).cons a)

/-- Strictly increasing in the order of `strcmp`. -/
def Increasing (l : List (Name × E)) : Prop := l.Pairwise fun a b => strcmp a.1 b.1 < 0

theorem pyInsert_increasing (a : Name × E) (ha : NulFree a.1) : ∀ l : List (Name × E),
    (∀ e ∈ l, NulFree e.1) → (∀ e ∈ l, e.1 ≠ a.1) → Increasing l → Increasing (pyInsert a l)
  | [], _, _, _ => by simp [pyInsert, Increasing]
  | b :: bs, hn, hd, hs => by
    have hb : NulFree b.1 := hn b (by simp)
    have hs' := List.pairwise_cons.1 hs
    unfold pyInsert
    have hne : strcmp a.1 b.1 ≠ 0 := fun h => hd b (by simp) ((strcmp_eq_zero ha hb).1 h).symm
    split
    · next h =>
      have hlt : strcmp a.1 b.1 < 0 := by have := (pyLe_iff ha hb).1 h; omega
      refine List.pairwise_cons.2 ⟨?_, hs⟩
      intro e he
      rcases List.mem_cons.1 he with rfl | he
      · exact hlt
      · exact strcmp_neg_trans ha hb (hn e (by simp [he])) hlt (hs'.1 e he)
    · next h =>
      have hgt : strcmp b.1 a.1 < 0 := by
        have h' : ¬ strcmp a.1 b.1 ≤ 0 := fun h' => h ((pyLe_iff ha hb).2 h')
        rw [strcmp_swap]; omega
      refine List.pairwise_cons.2 ⟨?_, pyInsert_increasing a ha bs (fun e he => hn e (by simp [he]))
        (fun e he => hd e (by simp [he])) hs'.2⟩
      intro e he
      rcases List.mem_cons.1 ((pyInsert_perm a bs).mem_iff.1 he) with rfl | he
      · exact hgt
      · exact hs'.1 e he

theorem pySorted_increasing : ∀ d : List (Name × E), (∀ e ∈ d, NulFree e.1) → (d.map Prod.fst).Nodup →
    Increasing (pySorted d)
  | [], _, _ => by simp [pySorted, Increasing]
  | a :: d, hn, hd => by
    rw [List.map_cons, List.nodup_cons] at hd
    rw [pySorted, List.foldr_cons]
    refine pyInsert_increasing a (hn a (by simp)) _ ?_ ?_ (pySorted_increasing d (fun e he => hn e (by simp [he])) hd.2)
    · intro e he
      exact hn e (by simp [(pySorted_perm d).mem_iff.1 he])
    · intro e he h
      exact hd.1 (h ▸ List.mem_map_of_mem (f := Prod.fst) ((pySorted_perm d).mem_iff.1 he))

theorem rd_append_left {α : Type} (xs ys : List α) (i : Nat) (h : i < xs.length) :
    rd (xs ++ ys) (i : Int) = .ok (xs[i]) := by
  unfold rd
  rw [dif_pos ⟨by omega, by simp; omega⟩]
  simp [List.getElem_append_left h]

theorem Increasing.lt {l : List (Name × E)} (h : Increasing l) (i j : Nat) (hij : i < j) (hj : j < l.length) :
    strcmp (l[i]).1 (l[j]).1 < 0 := (List.pairwise_iff_getElem.1 h) i j (by omega) hj hij

/-- The search loop on an increasing table finds the name or shows that it is absent. -/
theorem findLoop_spec (l : List (Name × E)) (hs : Increasing l) (hn : ∀ e ∈ l, NulFree e.1)
    (hb : l.length ≤ 2147483647) (name : Name) (hname : NulFree name) :
    ∀ (fuel : Nat) (imin imax : Int), 0 ≤ imin → imax < l.length → imax - imin + 1 < fuel → -1 ≤ imax → imin ≤ l.length →
      (∀ (i : Nat) (h : i < l.length), (i : Int) < imin → 0 < strcmp name (l[i]).1) →
      (∀ (i : Nat) (h : i < l.length), imax < (i : Int) → strcmp name (l[i]).1 < 0) →
      (∃ (i : Nat) (h : i < l.length), (l[i]).1 = name ∧
          findLoop (l.map some ++ [none]) name fuel imin imax = .ok (.at i)) ∨
      ((∀ e ∈ l, e.1 ≠ name) ∧ findLoop (l.map some ++ [none]) name fuel imin imax = .ok .absent) := by
  intro fuel
  induction fuel with
  | zero =>
    intro imin imax h0 h1 hf hm hM hlo hhi
    exfalso
    push_cast at hf
    by_cases h : imin ≤ imax
    · omega
    · -- imax - imin + 1 < 0 means imin > imax + 1: some index lies on both sides
      have hi : (imax + 1).toNat < l.length := by omega
      have a := hlo _ hi (by omega)
      have b := hhi _ hi (by omega)
      omega
  | succ fuel ih =>
    intro imin imax h0 h1 hf hm hM hlo hhi
    unfold findLoop
    by_cases h : imax ≥ imin
    · rw [if_pos h]
      have hd0 : (0 : Int) ≤ imax - imin := by omega
      have ht : (imax - imin).tdiv 2 = (imax - imin) / 2 := Int.tdiv_eq_ediv_of_nonneg hd0
      rw [i32_ok _ (by omega) (by omega), bind_ok, ht, i32_ok _ (by omega) (by omega), bind_ok]
      obtain ⟨i, hi⟩ : ∃ i : Nat, imin + (imax - imin) / 2 = (i : Int) :=
        ⟨(imin + (imax - imin) / 2).toNat, by omega⟩
      rw [hi]
      have hil : i < l.length := by omega
      rw [rd_append_left _ _ i (by simpa using hil), bind_ok]
      simp only [List.getElem_map]
      have hni : NulFree (l[i]).1 := hn _ (List.getElem_mem hil)
      by_cases hc : strcmp name (l[i]).1 = 0
      · rw [if_pos hc]
        exact .inl ⟨i, hil, ((strcmp_eq_zero hname hni).1 hc).symm, rfl⟩
      · rw [if_neg hc]
        by_cases hg : strcmp name (l[i]).1 > 0
        · rw [if_pos hg, i32_ok _ (by omega) (by omega), bind_ok]
          refine ih _ _ (by omega) h1 (by push_cast at hf; omega) hm (by omega) ?_ hhi
          intro j hj hji
          by_cases e : j = i
          · subst e; exact hg
          · have hlt := hs.lt j i (by omega) hil
            have hgt : strcmp (l[i]).1 name < 0 := by rw [strcmp_swap]; omega
            have := strcmp_neg_trans (hn _ (List.getElem_mem hj)) hni hname hlt hgt
            rw [strcmp_swap]; omega
        · rw [if_neg hg, i32_ok _ (by omega) (by omega), bind_ok]
          refine ih _ _ h0 (by omega) (by push_cast at hf; omega) (by omega) (by omega) hlo ?_
          intro j hj hji
          by_cases e : j = i
          · subst e; omega
          · have hlt := hs.lt i j (by omega) hj
            exact strcmp_neg_trans hname hni (hn _ (List.getElem_mem hj)) (by omega) hlt
    · rw [if_neg h]
      refine .inr ⟨?_, rfl⟩
      intro e he hne
      obtain ⟨i, hi, rfl⟩ := List.getElem_of_mem he
      have hz : strcmp name (l[i]).1 = 0 := (strcmp_eq_zero hname (hn _ he)).2 hne.symm
      by_cases hlt : (i : Int) < imin
      · have := hlo i hi hlt; omega
      · have := hhi i hi (by omega); omega

theorem sorted_nulFree {d : List (Name × E)} (hn : ∀ e ∈ d, NulFree e.1) : ∀ e ∈ pySorted d, NulFree e.1 :=
  fun e he => hn e ((pySorted_perm d).mem_iff.1 he)

theorem tiFind_spec (d : List (Name × E)) (hn : ∀ e ∈ d, NulFree e.1) (hd : (d.map Prod.fst).Nodup)
    (hb : d.length ≤ 2147483647) (name : Name) (hname : NulFree name) (fuel : Nat) (hf : d.length < fuel) :
    (∃ (i : Nat) (h : i < (pySorted d).length), ((pySorted d)[i]).1 = name ∧ tiFind d name fuel = .ok (.at i)) ∨
      ((∀ e ∈ d, e.1 ≠ name) ∧ tiFind d name fuel = .ok .absent) := by
  have hl : (pySorted d).length = d.length := (pySorted_perm d).length_eq
  unfold tiFind tiIndicators
  rw [i32_ok _ (by simp [hl]; omega) (by simp [hl]; omega), bind_ok]
  have := findLoop_spec (pySorted d) (pySorted_increasing d hn hd) (sorted_nulFree hn) (by omega) name hname fuel 0
    ((((pySorted d).map some ++ [none]).length : Int) - 2) (by omega) (by simp; omega) (by simp [hl]; omega) (by simp; omega)
    (by omega) (fun i _ h => by omega) (fun i h h' => by simp at h'; omega)
  rcases this with h | ⟨h, h'⟩
  · exact .inl h
  · exact .inr ⟨fun e he => h e ((pySorted_perm d).mem_iff.2 he), h'⟩

theorem pyInsert_map {F : Type} (f : E → F) (a : Name × E) : ∀ l : List (Name × E),
    (pyInsert a l).map (fun e => (e.1, f e.2)) = pyInsert (a.1, f a.2) (l.map fun e => (e.1, f e.2))
  | [] => rfl
  | b :: bs => by
    unfold pyInsert
    simp only [List.map_cons]
    by_cases h : pyLe a.1 b.1
    · simp [h]
    · simp only [h, Bool.false_eq_true, if_false, List.map_cons, pyInsert_map f a bs]

theorem pySorted_map {F : Type} (f : E → F) : ∀ d : List (Name × E),
    pySorted (d.map fun e => (e.1, f e.2)) = (pySorted d).map fun e => (e.1, f e.2)
  | [] => rfl
  | a :: d => by
    have := pySorted_map f d
    simp only [pySorted, List.map_cons, List.foldr_cons] at this ⊢
    rw [this, pyInsert_map]

/-- The enum constant of a name is the position of its entry in the table. -/
theorem enumIndex_spec (d : List (Name × E)) (hd : (d.map Prod.fst).Nodup) (e : Name × E) (he : e ∈ d) :
    rd (tiIndicators d) (enumIndex d e.1) = .ok (some e) := by
  have hk : (pySorted (d.map fun e => (e.1, ()))).map Prod.fst = (pySorted d).map Prod.fst := by
    rw [pySorted_map (fun _ => ())]; simp [List.map_map, Function.comp_def]
  have hmem : e ∈ pySorted d := (pySorted_perm d).mem_iff.2 he
  have hnd : ((pySorted d).map Prod.fst).Nodup := (((pySorted_perm d).map Prod.fst).nodup_iff).2 hd
  obtain ⟨i, hi, hie⟩ := List.getElem_of_mem hmem
  have hidx : ((pySorted d).map Prod.fst).idxOf e.1 = i := by
    have h1 : ((pySorted d).map Prod.fst)[i]'(by simpa using hi) = e.1 := by simp [hie]
    rw [← h1]
    simpa using List.get_idxOf hnd ⟨i, by simpa using hi⟩
  unfold enumIndex tiIndicators
  rw [hk, hidx, rd_append_left _ _ i (by simpa using hi)]
  simp [hie]

section
variable {R ρ ω : Type}

theorem tiStreamRuns_spec (env : Name → Indicator R ρ ω) (d : List (Name × Bool)) (hd : (d.map Prod.fst).Nodup)
    (X : Name) (hX : (X, true) ∈ d) (k : (env X).κ) : ∀ (chunks : List (List ρ)) (p : Int) (s : (env X).σ),
    tiStreamRuns env d chunks ⟨enumIndex d X, p, X, k, s⟩ =
      match (env X).runs k chunks p s with
      | .error e => .error e
      | .ok (p', s', out) => .ok (⟨enumIndex d X, p', X, k, s'⟩, out)
  | [], p, s => rfl
  | c :: cs, p, s => by
    unfold tiStreamRuns Indicator.runs tiStreamRun
    simp only []
    rw [enumIndex_spec d hd (X, true) hX, bind_ok]
    simp only [entryFn, bind_ok, runStream, if_true]
    cases h : runPhases ((env X).phases k) c p s with
    | error e => rfl
    | ok r =>
      obtain ⟨p1, s1, o1⟩ := r
      simp only [bind_ok, tiStreamRuns_spec env d hd X hX k cs p1 s1]
      cases h2 : (env X).runs k cs p1 s1 with
      | error e => rfl
      | ok r => rfl

end
end Verif
