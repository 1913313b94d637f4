/-
The source-file part of codegen.py: what one turn of the loop does to the directory.
-/
import Verif.Model.Codegen
import Mathlib.Data.List.Infix
import Mathlib.Tactic.Basic

namespace Verif.Codegen

/-- Indicator `n` has a source file with text `u`. -/
def Holds (d : Dir) (n u : Text) : Prop := (d n).c = some u ∨ (d n).cc = some u

/-- No indicator has two source files. -/
def Single (d : Dir) : Prop := ∀ n, (d n).c = none ∨ (d n).cc = none

theorem search_iff (p s : Text) : search p s = true ↔ p <:+: s := by
  induction s with
  | nil => simp [search]
  | cons c s ih => rw [search, Bool.or_eq_true, ih, List.isPrefixOf_iff_prefix, List.infix_cons_iff]

theorem readlines_flatten (s : Text) : (readlines s).flatten = s := by
  induction s with
  | nil => rfl
  | cons c s ih =>
    rw [readlines]
    split
    · simp [ih]
    · split
      · rename_i h; rw [h] at ih; simp at ih; simp [← ih]
      · rename_i h; rw [h] at ih; simpa using ih

theorem prefix_line {p : Text} (hn : '\n' ∉ p) (hp : p ≠ []) {s : Text} (h : p <+: s) : ∃ l ls, readlines s = l :: ls ∧ p <+: l := by
  induction p generalizing s with
  | nil => exact absurd rfl hp
  | cons a p ih =>
    obtain ⟨r, rfl⟩ := h
    simp only [List.mem_cons, not_or] at hn
    have ha : a ≠ '\n' := fun e => hn.1 e.symm
    show ∃ l ls, readlines (a :: (p ++ r)) = l :: ls ∧ _
    rw [readlines, if_neg ha]
    by_cases h0 : p = []
    · subst h0
      cases readlines ([] ++ r) with
      | nil => exact ⟨_, _, rfl, List.prefix_rfl⟩
      | cons l ls => exact ⟨_, _, rfl, by simp⟩
    · obtain ⟨l, ls, e, h'⟩ := ih hn.2 h0 (List.prefix_append p r)
      rw [e]
      exact ⟨_, _, rfl, by simpa using h'⟩

theorem infix_line {p : Text} (hn : '\n' ∉ p) (hp : p ≠ []) {s : Text} (h : p <:+: s) : ∃ l ∈ readlines s, p <:+: l := by
  induction s with
  | nil => exact absurd (List.infix_nil.1 h) hp
  | cons c s ih =>
    rcases List.infix_cons_iff.1 h with h | h
    · obtain ⟨l, ls, e, h'⟩ := prefix_line hn hp h
      exact ⟨l, by simp [e], h'.isInfix⟩
    · obtain ⟨l, hl, h'⟩ := ih h
      rw [readlines]
      split
      · exact ⟨l, by simp [hl], h'⟩
      · split
        · rename_i e; rw [e] at hl; simp at hl
        · rename_i e; rw [e] at hl
          rcases List.mem_cons.1 hl with rfl | hl
          · exact ⟨c :: l, by simp, h'.trans (List.suffix_cons c l).isInfix⟩
          · exact ⟨l, by simp [hl], h'⟩

theorem infix_flatten {l : Text} {ls : List Text} (h : l ∈ ls) : l <:+: ls.flatten := by
  obtain ⟨a, b, rfl⟩ := List.append_of_mem h
  exact ⟨a.flatten, b.flatten, by simp⟩

theorem infix_join {sep l : Text} {ls : List Text} (h : l ∈ ls) : l <:+: join sep ls := by
  induction ls with
  | nil => simp at h
  | cons a ls ih =>
    cases ls with
    | nil => simp at h; subst h; exact List.infix_rfl
    | cons b ls =>
      rw [join]
      rcases List.mem_cons.1 h with rfl | h
      · exact ⟨[], sep ++ join sep (b :: ls), by simp⟩
      · exact (ih h).trans (List.suffix_append _ _).isInfix
      · simp

theorem addHeaders_sublist (ls : List Text) : ls.Sublist (addHeaders ls) := by
  conv => lhs; rw [← List.take_append_drop (nextInclude false 0 ls) ls]
  exact (List.sublist_append_left _ _).append (List.Sublist.refl _)

theorem flatten_sublist {a b : List Text} (h : a.Sublist b) : a.flatten.Sublist b.flatten := by
  induction h with
  | slnil => exact List.Sublist.refl _
  | cons l _ ih => exact ih.trans (List.sublist_append_right _ _)
  | cons_cons l _ ih => exact (List.Sublist.refl l).append ih

theorem headers_sublist (v : Text) : v.Sublist (addHeaders (readlines v)).flatten := by
  conv => lhs; rw [← readlines_flatten v]
  exact flatten_sublist (addHeaders_sublist _)

theorem headers_infix {p : Text} (hn : '\n' ∉ p) (hp : p ≠ []) {v : Text} (h : p <:+: v) : p <:+: (addHeaders (readlines v)).flatten := by
  obtain ⟨l, hl, h'⟩ := infix_line hn hp h
  exact h'.trans (infix_flatten ((addHeaders_sublist _).subset hl))

theorem ref_mark (e : Entry) : ∃ l ∈ ref e, refMark e.name <:+: l := by
  refine ⟨declRef e.name ++ t " {", by simp [ref], t "DONTOPTIMIZEint ", t "(int size, TI_REAL const *const *inputs, TI_REAL const *options, TI_REAL *const *outputs)" ++ t " {", ?_⟩
  have h1 : t "DONTOPTIMIZEint ti_" = t "DONTOPTIMIZEint " ++ t "ti_" := by decide +kernel
  have h2 : t "_ref(int size, TI_REAL const *const *inputs, TI_REAL const *options, TI_REAL *const *outputs)" =
    t "_ref" ++ t "(int size, TI_REAL const *const *inputs, TI_REAL const *options, TI_REAL *const *outputs)" := by decide +kernel
  rw [refMark, declRef, h1, h2]
  simp only [List.append_assoc]

theorem stream_mark (old : Bool) (upper : Text → Text) (e : Entry) : ∃ l ∈ stream old upper e, streamMark e.name <:+: l := by
  refine ⟨declStreamNew e.name ++ t " {", by simp [stream], t "int ", t "_new(TI_REAL const *options, ti_stream **stream)" ++ t " {", ?_⟩
  have h1 : t "int ti_" = t "int " ++ t "ti_" := by decide +kernel
  have h2 : t "_stream_new(TI_REAL const *options, ti_stream **stream)" = t "_stream" ++ t "_new(TI_REAL const *options, ti_stream **stream)" := by decide +kernel
  rw [streamMark, declStreamNew, h1, h2]
  simp only [List.append_assoc]

theorem mark_line {n : Text} (hn : '\n' ∉ n) : '\n' ∉ refMark n ∧ '\n' ∉ streamMark n := by
  have h1 : '\n' ∉ t "ti_" := by decide +kernel
  have h2 : '\n' ∉ t "_ref" := by decide +kernel
  have h3 : '\n' ∉ t "_stream" := by decide +kernel
  simp [refMark, streamMark, h1, h2, h3, hn]

theorem mark_ne (n : Text) : refMark n ≠ [] ∧ streamMark n ≠ [] := by
  have h : t "ti_" ≠ [] := by decide +kernel
  simp [refMark, streamMark, h]

/-! ### One turn -/

theorem holds_other {d : Dir} {n m : Text} {s : Src} (h : n ≠ m) {u : Text} : Holds (Function.update d m s) n u ↔ Holds d n u := by
  simp [Holds, Function.update_of_ne h]

/-- Every text of `d` lives on in a text of `d'`. -/
def Grows (d d' : Dir) : Prop := ∀ n u, Holds d n u → ∃ v, Holds d' n v ∧ u.Sublist v

theorem Grows.refl (d : Dir) : Grows d d := fun _ u h => ⟨u, h, List.Sublist.refl u⟩

theorem Grows.trans {a b c : Dir} (h : Grows a b) (h' : Grows b c) : Grows a c := fun n u hu => by
  obtain ⟨v, hv, s⟩ := h n u hu
  obtain ⟨w, hw, s'⟩ := h' n v hv
  exact ⟨w, hw, s.trans s'⟩

theorem grows_update {d : Dir} {m : Text} {s : Src} (hs : ∀ u, Holds d m u → ∃ v, (s.c = some v ∨ s.cc = some v) ∧ u.Sublist v) : Grows d (Function.update d m s) := fun n u h => by
  by_cases e : n = m
  · subst e
    obtain ⟨v, hv, k⟩ := hs u h
    exact ⟨v, by simpa [Holds] using hv, k⟩
  · exact ⟨u, (holds_other e).2 h, List.Sublist.refl u⟩

theorem prepare_grows (old : Bool) (upper : Text → Text) (e : Entry) (s : St) : Grows s.dir (prepare old upper e s).dir := by
  unfold prepare
  split
  · rename_i h
    exact grows_update fun u hu => by simp [Holds, h] at hu
  · exact Grows.refl _
  · exact Grows.refl _

theorem append_grows (old : Bool) (mv : Text → Bool) (e : Entry) (d : Dir) (ls : List Text) : Grows d (append old mv e d ls).dir := by
  unfold append
  dsimp only
  split
  · split
    · exact Grows.refl _
    · rename_i u h
      refine grows_update fun v hv => ?_
      rcases hv with hv | hv
      · rw [h] at hv; cases hv
        exact ⟨_, .inl rfl, List.sublist_append_left _ _⟩
      · exact ⟨v, .inr hv, List.Sublist.refl _⟩
  · split
    · rename_i u h
      split
      · exact Grows.refl _
      · rename_i v h'
        refine grows_update fun w hw => ?_
        by_cases hc : ((d e.name).cc.isNone && mv e.name) = true
        · rw [if_pos hc] at h' ⊢
          cases h'
          simp only [Bool.and_eq_true, Option.isNone_iff_eq_none] at hc
          rcases hw with hw | hw
          · rw [h] at hw; cases hw
            exact ⟨_, .inr rfl, (headers_sublist _).trans (List.sublist_append_left _ _)⟩
          · rw [hc.1] at hw; cases hw
        · rw [if_neg hc] at h' ⊢
          rcases hw with hw | hw
          · exact ⟨w, .inl hw, List.Sublist.refl _⟩
          · rw [h'] at hw; cases hw
            exact ⟨_, .inr rfl, (headers_sublist _).trans (List.sublist_append_left _ _)⟩
    · rename_i h
      split
      · exact Grows.refl _
      · rename_i v h'
        refine grows_update fun w hw => ?_
        rcases hw with hw | hw
        · rw [h] at hw; cases hw
        · rw [h'] at hw; cases hw
          exact ⟨_, .inr rfl, List.sublist_append_left _ _⟩

theorem step_grows (old : Bool) (upper : Text → Text) (mv : Text → Bool) (s : St) (e : Entry) : Grows s.dir (step old upper mv s e).dir := by
  unfold step
  dsimp only
  split
  · exact prepare_grows old upper e s
  · exact prepare_grows old upper e s
  · exact (prepare_grows old upper e s).trans (append_grows old mv e _ _)

theorem loop_grows (old : Bool) (upper : Text → Text) (mv : Text → Bool) (es : List Entry) (s : St) : Grows s.dir (loop old upper mv es s).dir := by
  induction es generalizing s with
  | nil => exact Grows.refl _
  | cons e es ih =>
    rw [loop]
    have h := step_grows old upper mv s e
    split
    · rename_i h'; rw [h'] at h; exact h
    · rename_i s' h'; rw [h'] at h; exact h.trans (ih s')

/-- A turn touches the files of its indicator only. -/
theorem step_other (old : Bool) (upper : Text → Text) (mv : Text → Bool) (s : St) (e : Entry) (n : Text) (h : n ≠ e.name) : (step old upper mv s e).dir n = s.dir n := by
  have hp : (prepare old upper e s).dir n = s.dir n := by
    unfold prepare
    split
    · simp [Function.update_of_ne h]
    · rfl
    · rfl
  unfold step
  dsimp only
  split
  · exact hp
  · exact hp
  · rename_i ls _ _
    rw [← hp]
    unfold append
    dsimp only
    repeat' split
    all_goals first | rfl | simp [Out.dir, Function.update_of_ne h]

theorem loop_other (old : Bool) (upper : Text → Text) (mv : Text → Bool) (es : List Entry) (s : St) (n : Text) (h : ∀ e ∈ es, n ≠ e.name) : (loop old upper mv es s).dir n = s.dir n := by
  induction es generalizing s with
  | nil => rfl
  | cons e es ih =>
    rw [loop]
    have h1 := step_other old upper mv s e n (h e (by simp))
    split
    · rename_i h'; rw [h'] at h1; exact h1
    · rename_i s' h'; rw [h'] at h1; exact (ih s' fun e he => h e (by simp [he])).trans h1

/-- The text has the sections the features of `e` ask for. -/
def HasSections (e : Entry) (u : Text) : Prop := (e.ref = true → refMark e.name <:+: u) ∧ (e.stream = true → streamMark e.name <:+: u)

/-- The indicator has one source file, with those sections. -/
def Complete (d : Dir) (e : Entry) : Prop := ∃ u, HasSections e u ∧ (d e.name = ⟨some u, none⟩ ∨ d e.name = ⟨none, some u⟩)

theorem HasSections.mono {e : Entry} {u v : Text} (h : HasSections e u) (huv : u <:+: v) : HasSections e v := ⟨fun k => (h.1 k).trans huv, fun k => (h.2 k).trans huv⟩

theorem HasSections.headers {e : Entry} (hn : '\n' ∉ e.name) {u : Text} (h : HasSections e u) : HasSections e (addHeaders (readlines u)).flatten :=
  ⟨fun k => headers_infix (mark_line hn).1 (mark_ne _).1 (h.1 k), fun k => headers_infix (mark_line hn).2 (mark_ne _).2 (h.2 k)⟩

theorem additions_nil {old : Bool} {upper : Text → Text} {e : Entry} {u : Text} : additions old upper e u = [] ↔ HasSections e u := by
  have h1 : ref e ≠ [] := by simp [ref]
  have h2 : stream old upper e ≠ [] := by simp [stream]
  rw [additions, HasSections, List.append_eq_nil_iff]
  refine and_congr ?_ ?_
  · rw [← search_iff]
    by_cases ha : e.ref = true <;> by_cases hb : search (refMark e.name) u = true <;> simp_all
  · rw [← search_iff]
    by_cases ha : e.stream = true <;> by_cases hb : search (streamMark e.name) u = true <;> simp_all

/-- What is appended supplies the missing sections. -/
theorem appended_has (old : Bool) (upper : Text → Text) (e : Entry) (u v : Text) (h : ∀ p, '\n' ∉ p → p ≠ [] → p <:+: u → p <:+: v) (hn : '\n' ∉ e.name) :
    HasSections e (v ++ join (t "\n") ([] :: additions old upper e u)) := by
  have key : ∀ l, l ∈ additions old upper e u → l <:+: v ++ join (t "\n") ([] :: additions old upper e u) := fun l hl =>
    (infix_join (List.mem_cons_of_mem _ hl)).trans (List.suffix_append _ _).isInfix
  constructor
  · intro k
    by_cases hs : search (refMark e.name) u = true
    · exact (h _ (mark_line hn).1 (mark_ne _).1 ((search_iff _ _).1 hs)).trans (List.prefix_append _ _).isInfix
    · obtain ⟨l, hl, hm⟩ := ref_mark e
      exact hm.trans (key l (by simp [additions, k, hs, hl]))
  · intro k
    by_cases hs : search (streamMark e.name) u = true
    · exact (h _ (mark_line hn).2 (mark_ne _).2 ((search_iff _ _).1 hs)).trans (List.prefix_append _ _).isInfix
    · obtain ⟨l, hl, hm⟩ := stream_mark old upper e
      exact hm.trans (key l (by simp [additions, k, hs, hl]))

theorem newFile_has (old : Bool) (upper : Text → Text) (e : Entry) : HasSections e (newFile old upper e) := by
  constructor
  · intro k
    obtain ⟨l, hl, hm⟩ := ref_mark e
    exact hm.trans (infix_join (by simp [k, hl]))
  · intro k
    obtain ⟨l, hl, hm⟩ := stream_mark old upper e
    exact hm.trans (infix_join (by simp [k, hl]))

theorem single_update {d : Dir} (h : Single d) {m : Text} {s : Src} (hs : s.c = none ∨ s.cc = none) : Single (Function.update d m s) := fun n => by
  by_cases e : n = m
  · subst e; simpa using hs
  · simpa [Function.update_of_ne e] using h n

theorem prepare_single (old : Bool) (upper : Text → Text) (e : Entry) (s : St) (h : Single s.dir) : Single (prepare old upper e s).dir := by
  unfold prepare
  split
  · refine single_update h ?_
    split
    · exact .inr rfl
    · exact .inl rfl
  · exact h
  · exact h

theorem append_single (old : Bool) (mv : Text → Bool) (e : Entry) (d : Dir) (ls : List Text) (h : Single d) : Single (append old mv e d ls).dir := by
  unfold append
  dsimp only
  split
  · split
    · exact h
    · rename_i u hu
      refine single_update h (.inr ?_)
      rcases h e.name with k | k
      · rw [hu] at k; cases k
      · exact k
  · split
    · rename_i u hu
      have k : (d e.name).cc = none := by
        rcases h e.name with k | k
        · rw [hu] at k; cases k
        · exact k
      split
      · exact h
      · rename_i v hv
        refine single_update h (.inl ?_)
        by_cases hc : ((d e.name).cc.isNone && mv e.name) = true
        · rw [if_pos hc]
        · rw [if_neg hc, k] at hv; cases hv
    · split
      · exact h
      · exact single_update h (.inl rfl)

theorem step_single (old : Bool) (upper : Text → Text) (mv : Text → Bool) (s : St) (e : Entry) (h : Single s.dir) : Single (step old upper mv s e).dir := by
  unfold step
  dsimp only
  split
  · exact prepare_single old upper e s h
  · exact prepare_single old upper e s h
  · exact append_single _ _ _ _ _ (prepare_single old upper e s h)

/-- After appending `ls` to the single source `u`, the source is `v` followed by `ls`, where `v` is `u` up to added headers. -/
theorem append_done {old : Bool} {mv : Text → Bool} {e : Entry} {d : Dir} {ls : List Text} {u : Text} {s' : St}
    (hu : d e.name = ⟨some u, none⟩ ∨ d e.name = ⟨none, some u⟩) (h : append old mv e d ls = .done s') :
    ∃ v, (v = u ∨ v = (addHeaders (readlines u)).flatten) ∧
      (s'.dir e.name = ⟨some (v ++ join (t "\n") ([] :: ls)), none⟩ ∨ s'.dir e.name = ⟨none, some (v ++ join (t "\n") ([] :: ls))⟩) := by
  unfold append at h
  rcases hu with hu | hu <;> simp only [hu] at h
  · split at h
    · cases h
      exact ⟨u, .inl rfl, .inl (by simp)⟩
    · by_cases hm : mv e.name = true
      · simp [hm] at h
        subst h
        exact ⟨_, .inr rfl, .inr (by simp)⟩
      · simp [hm] at h
  · split at h
    · cases h
    · cases h
      exact ⟨u, .inl rfl, .inr (by simp)⟩

theorem infix_headers {e : Entry} (hn : '\n' ∉ e.name) {u v : Text} (hv : v = u ∨ v = (addHeaders (readlines u)).flatten) (h : HasSections e u) : HasSections e v := by
  rcases hv with rfl | rfl
  · exact h
  · exact h.headers hn

theorem step_complete (old : Bool) (upper : Text → Text) (mv : Text → Bool) (s s' : St) (e : Entry) (hn : '\n' ∉ e.name) (hs : Single s.dir)
    (h : step old upper mv s e = .done s') : Complete s'.dir e := by
  have exist : ∀ u, (s.dir e.name = ⟨some u, none⟩ ∨ s.dir e.name = ⟨none, some u⟩) → Complete s'.dir e := fun u hu => by
    have hp : prepare old upper e s = ⟨s.dir, some (additions old upper e u)⟩ := by
      unfold prepare
      rcases hu with hu | hu <;> rw [hu]
    unfold step at h
    rw [hp] at h
    dsimp only at h
    cases ha : additions old upper e u with
    | nil =>
      rw [ha] at h
      cases h
      exact ⟨u, additions_nil.1 ha, hu⟩
    | cons a l =>
      rw [ha] at h
      dsimp only at h
      obtain ⟨v, hv, hd⟩ := append_done hu h
      refine ⟨_, ?_, hd⟩
      rw [← ha]
      refine appended_has old upper e u v (fun p k1 k2 k3 => ?_) hn
      rcases hv with rfl | rfl
      · exact k3
      · exact headers_infix k1 k2 k3
  cases hd : s.dir e.name with
  | mk c cc =>
    cases c with
    | some u =>
      cases cc with
      | none => exact exist u (.inl hd)
      | some w => have := hs e.name; simp [hd] at this
    | none =>
      cases cc with
      | some w => exact exist w (.inr hd)
      | none =>
        have hp : prepare old upper e s = ⟨Function.update s.dir e.name (if old then ⟨some (newFile old upper e), none⟩ else ⟨none, some (newFile old upper e)⟩), s.tbd⟩ := by
          unfold prepare; rw [hd]
        have hu : (prepare old upper e s).dir e.name = ⟨some (newFile old upper e), none⟩ ∨ (prepare old upper e s).dir e.name = ⟨none, some (newFile old upper e)⟩ := by
          rw [hp]; cases old <;> simp
        unfold step at h
        dsimp only at h
        split at h
        · cases h
        · cases h
          exact ⟨_, newFile_has old upper e, hu⟩
        · obtain ⟨v, hv, hd⟩ := append_done hu h
          exact ⟨_, (infix_headers hn hv (newFile_has old upper e)).mono (List.prefix_append _ _).isInfix, hd⟩

/-- A turn for an indicator that is complete changes nothing. -/
theorem step_idle (old : Bool) (upper : Text → Text) (mv : Text → Bool) (s : St) (e : Entry) (h : Complete s.dir e) : step old upper mv s e = .done ⟨s.dir, some []⟩ := by
  obtain ⟨u, hs, hu⟩ := h
  unfold step prepare
  rcases hu with hu | hu <;> simp [hu, additions_nil.2 hs]

end Verif.Codegen
