/-
C84: running codegen.py on a directory of source files.
-/
import Verif.Proof.Codegen

namespace Verif.Codegen

/-- codegen.py never loses code: whatever text a source file has before a run is, perhaps with lines added in between and at the end, in a source
file of the same indicator afterwards, even if the script dies half-way. -/
theorem codegen_keeps (old : Bool) (upper : Text → Text) (mv : Text → Bool) (yaml : List Entry) (d : Dir) (n u : Text) (h : Holds d n u) :
    ∃ v, Holds (run old upper mv yaml d).dir n v ∧ u.Sublist v := loop_grows old upper mv yaml ⟨d, none⟩ n u h

/-- The files of indicators that are not in indicators.yaml are left alone. -/
theorem codegen_other (old : Bool) (upper : Text → Text) (mv : Text → Bool) (yaml : List Entry) (d : Dir) (n : Text) (h : ∀ e ∈ yaml, n ≠ e.name) :
    (run old upper mv yaml d).dir n = d n := loop_other old upper mv yaml ⟨d, none⟩ n h

theorem loop_complete (old : Bool) (upper : Text → Text) (mv : Text → Bool) (es : List Entry) (s s' : St) (hn : ∀ e ∈ es, '\n' ∉ e.name)
    (hd : (es.map Entry.name).Nodup) (hs : Single s.dir) (h : loop old upper mv es s = .done s') : Single s'.dir ∧ ∀ e ∈ es, Complete s'.dir e := by
  induction es generalizing s with
  | nil => cases h; exact ⟨hs, by simp⟩
  | cons e es ih =>
    rw [loop] at h
    cases hst : step old upper mv s e with
    | died c d => rw [hst] at h; cases h
    | done s1 =>
      rw [hst] at h
      dsimp only at h
      have h1 := step_single old upper mv s e hs
      rw [hst] at h1
      simp only [List.map_cons, List.nodup_cons] at hd
      obtain ⟨a, b⟩ := ih s1 (fun e he => hn e (by simp [he])) hd.2 h1 h
      refine ⟨a, fun f hf => ?_⟩
      rcases List.mem_cons.1 hf with rfl | hf
      · obtain ⟨u, hu, k⟩ := step_complete old upper mv s s1 f (hn f (by simp)) hs hst
        have e1 := loop_other old upper mv es s1 f.name fun e he k => hd.1 (by rw [k]; exact List.mem_map_of_mem he)
        rw [h] at e1
        exact ⟨u, hu, by rw [show s'.dir f.name = s1.dir f.name from e1]; exact k⟩
      · exact b f hf

/-- After a run that finishes, every indicator has exactly one source file, and it mentions `ti_…_ref` and `ti_…_stream` where the features ask for
them. Names have no line break, and no indicator had two source files. -/
theorem codegen_complete (old : Bool) (upper : Text → Text) (mv : Text → Bool) (yaml : List Entry) (d : Dir) (s' : St) (hn : ∀ e ∈ yaml, '\n' ∉ e.name)
    (hd : (yaml.map Entry.name).Nodup) (hs : Single d) (h : run old upper mv yaml d = .done s') (e : Entry) (he : e ∈ yaml) :
    ∃ u, (s'.dir e.name = ⟨some u, none⟩ ∨ s'.dir e.name = ⟨none, some u⟩) ∧ (e.ref = true → "ti_".toList ++ e.name ++ "_ref".toList <:+: u) ∧
      (e.stream = true → "ti_".toList ++ e.name ++ "_stream".toList <:+: u) := by
  obtain ⟨u, hu, k⟩ := (loop_complete old upper mv yaml ⟨d, none⟩ s' hn hd hs h).2 e he
  exact ⟨u, k, hu⟩

theorem loop_idle (old : Bool) (upper : Text → Text) (mv : Text → Bool) (es : List Entry) (s : St) (h : ∀ e ∈ es, Complete s.dir e) :
    ∃ s', loop old upper mv es s = .done s' ∧ s'.dir = s.dir := by
  induction es generalizing s with
  | nil => exact ⟨s, rfl, rfl⟩
  | cons e es ih =>
    rw [loop, step_idle old upper mv s e (h e (by simp))]
    exact ih ⟨s.dir, some []⟩ fun f hf => h f (by simp [hf])

/-- A second run, whatever its flag, changes nothing. -/
theorem codegen_twice (old old' : Bool) (upper : Text → Text) (mv mv' : Text → Bool) (yaml : List Entry) (d : Dir) (s' : St) (hn : ∀ e ∈ yaml, '\n' ∉ e.name)
    (hd : (yaml.map Entry.name).Nodup) (hs : Single d) (h : run old upper mv yaml d = .done s') :
    ∃ s'', run old' upper mv' yaml s'.dir = .done s'' ∧ s''.dir = s'.dir :=
  loop_idle old' upper mv' yaml ⟨s'.dir, none⟩ (loop_complete old upper mv yaml ⟨d, none⟩ s' hn hd hs h).2

theorem loop_finishes (upper : Text → Text) (mv : Text → Bool) (hm : ∀ n, mv n = true) (es : List Entry) (s : St) (hs : Single s.dir) (ht : s.tbd ≠ none) :
    ∃ s', loop false upper mv es s = .done s' := by
  induction es generalizing s with
  | nil => exact ⟨s, rfl⟩
  | cons e es ih =>
    have hp := prepare_single false upper e s hs
    have ht' : (prepare false upper e s).tbd ≠ none := by
      unfold prepare
      split <;> simp [ht]
    have hsrc : ((prepare false upper e s).dir e.name).c ≠ none ∨ ((prepare false upper e s).dir e.name).cc ≠ none := by
      unfold prepare
      split
      · right; simp
      · rename_i h; left; simp [h]
      · rename_i h; right; simp [h]
    have hst : ∃ s1, step false upper mv s e = .done s1 ∧ s1.tbd ≠ none := by
      unfold step
      dsimp only
      split
      · rename_i k; exact absurd k ht'
      · exact ⟨_, rfl, ht'⟩
      · unfold append
        dsimp only
        cases hc : ((prepare false upper e s).dir e.name).c with
        | some u =>
          have k : ((prepare false upper e s).dir e.name).cc = none := by
            rcases hp e.name with k | k
            · rw [hc] at k; cases k
            · exact k
          simp [k, hm]
        | none =>
          cases hcc : ((prepare false upper e s).dir e.name).cc with
          | none => rw [hc, hcc] at hsrc; simp at hsrc
          | some v => simp
    obtain ⟨s1, h1, h2⟩ := hst
    rw [loop, h1]
    have h3 := step_single false upper mv s e hs
    rw [h1] at h3
    exact ih s1 h3 h2

/-- Partial: without `--old`, a run finishes if the first indicator has a source file and `git mv` works. If the first has none, the script dies
(`codegen_first_violates`), and with `--old` it can die too (`codegen_old_violates`). -/
theorem codegen_finishes_partial (upper : Text → Text) (mv : Text → Bool) (hm : ∀ n, mv n = true) (e : Entry) (yaml : List Entry) (d : Dir) (hs : Single d) (u : Text)
    (h : Holds d e.name u) : ∃ s', run false upper mv (e :: yaml) d = .done s' := by
  have hp : prepare false upper e ⟨d, none⟩ = prepare false upper e ⟨d, some []⟩ := by
    unfold prepare
    dsimp only
    cases hd : d e.name with
    | mk c cc =>
      cases c with
      | some v => rfl
      | none =>
        cases cc with
        | some v => rfl
        | none => rw [Holds, hd] at h; simp at h
  have : run false upper mv (e :: yaml) d = loop false upper mv (e :: yaml) ⟨d, some []⟩ := by
    rw [run, loop, loop]
    unfold step
    rw [hp]
  rw [this]
  exact loop_finishes upper mv hm (e :: yaml) ⟨d, some []⟩ hs (by simp)

theorem loop_split (old : Bool) (upper : Text → Text) (mv : Text → Bool) (a b : List Entry) (s s' : St) (h : loop old upper mv (a ++ b) s = .done s') :
    ∃ s1, loop old upper mv a s = .done s1 ∧ loop old upper mv b s1 = .done s' := by
  induction a generalizing s with
  | nil => exact ⟨s, rfl, h⟩
  | cons e a ih =>
    rw [List.cons_append, loop] at h
    cases hst : step old upper mv s e with
    | died c d => rw [hst] at h; cases h
    | done s1 =>
      rw [hst] at h
      obtain ⟨s2, h2, h3⟩ := ih s1 h
      exact ⟨s2, by rw [loop, hst]; exact h2, h3⟩

/-- Partial: an indicator without a source file gets exactly the skeleton, if the indicator before it in indicators.yaml needed nothing. Otherwise it
gets the sections of that one as well (`codegen_stale_violates`). -/
theorem codegen_fresh_partial (upper : Text → Text) (mv : Text → Bool) (y1 y2 : List Entry) (a e : Entry) (d : Dir) (s' : St)
    (hd : ((y1 ++ a :: e :: y2).map Entry.name).Nodup) (u : Text) (ha : d a.name = ⟨some u, none⟩ ∨ d a.name = ⟨none, some u⟩)
    (hr : a.ref = true → refMark a.name <:+: u) (hst : a.stream = true → streamMark a.name <:+: u) (he : d e.name = ⟨none, none⟩)
    (h : run false upper mv (y1 ++ a :: e :: y2) d = .done s') : s'.dir e.name = ⟨none, some (newFile false upper e)⟩ := by
  obtain ⟨s1, h1, h2⟩ := loop_split _ _ _ _ _ _ _ h
  rw [List.map_append, List.nodup_append] at hd
  have o1 : ∀ n ∈ (a :: e :: y2).map Entry.name, s1.dir n = d n := fun n hn => by
    have := loop_other false upper mv y1 ⟨d, none⟩ n fun f hf k => hd.2.2 f.name (List.mem_map_of_mem hf) n hn k.symm
    rw [h1] at this
    exact this
  have ca : Complete s1.dir a := ⟨u, ⟨hr, hst⟩, by rw [o1 a.name (by simp)]; exact ha⟩
  rw [loop, step_idle false upper mv s1 a ca] at h2
  dsimp only at h2
  have hs : step false upper mv ⟨s1.dir, some []⟩ e = .done ⟨Function.update s1.dir e.name ⟨none, some (newFile false upper e)⟩, some []⟩ := by
    have k := o1 e.name (by simp)
    unfold step prepare
    simp [k, he]
  rw [loop, hs] at h2
  dsimp only at h2
  have hd2 := hd.2.1
  simp only [List.map_cons, List.nodup_cons] at hd2
  have := loop_other false upper mv y2 ⟨Function.update s1.dir e.name ⟨none, some (newFile false upper e)⟩, some []⟩ e.name fun f hf k =>
    hd2.2.1 (by rw [k]; exact List.mem_map_of_mem hf)
  rw [h2] at this
  simpa [Out.dir] using this

/-! ### Where it goes wrong -/

/-- If the first indicator has no source file yet, the script dies after writing it: `tbd` is unassigned. -/
theorem codegen_first_violates (old : Bool) (upper : Text → Text) (mv : Text → Bool) (e : Entry) (yaml : List Entry) (d : Dir) (h : d e.name = ⟨none, none⟩) :
    ∃ d', run old upper mv (e :: yaml) d = .died .nameError d' := by
  refine ⟨(prepare old upper e ⟨d, none⟩).dir, ?_⟩
  have : (prepare old upper e ⟨d, none⟩).tbd = none := by unfold prepare; simp only [h]
  rw [run, loop]
  unfold step
  simp [this]

/-- A new indicator that follows one to which a stream had to be added gets the other's stream as well. -/
theorem codegen_stale_violates (upper : Text → Text) (mv : Text → Bool) (a e : Entry) (d : Dir) (u : Text) (hne : e.name ≠ a.name) (ha : d a.name = ⟨none, some u⟩)
    (hs : a.stream = true) (hu : ¬ streamMark a.name <:+: u) (he : d e.name = ⟨none, none⟩) :
    ∃ s' v, run false upper mv [a, e] d = .done s' ∧ s'.dir e.name = ⟨none, some v⟩ ∧ "ti_".toList ++ a.name ++ "_stream".toList <:+: v := by
  have hp : prepare false upper a ⟨d, none⟩ = ⟨d, some (additions false upper a u)⟩ := by unfold prepare; simp only [ha]
  have hadd : additions false upper a u ≠ [] := fun k => hu ((additions_nil.1 k).2 hs)
  have hm : ∃ l ∈ additions false upper a u, streamMark a.name <:+: l := by
    obtain ⟨l, hl, hm⟩ := stream_mark false upper a
    have : search (streamMark a.name) u ≠ true := fun k => hu ((search_iff _ _).1 k)
    exact ⟨l, by simp [additions, hs, this, hl], hm⟩
  obtain ⟨l, hl, hm⟩ := hm
  generalize hL : additions false upper a u = L at *
  cases L with
  | nil => exact absurd rfl hadd
  | cons b L =>
    have h1 : step false upper mv ⟨d, none⟩ a = .done ⟨Function.update d a.name ⟨none, some (u ++ join (t "\n") ([] :: b :: L))⟩, some (b :: L)⟩ := by
      unfold step
      rw [hp]
      simp [append, ha]
    have h2 : ∃ d', step false upper mv ⟨Function.update d a.name ⟨none, some (u ++ join (t "\n") ([] :: b :: L))⟩, some (b :: L)⟩ e =
        .done ⟨Function.update d' e.name ⟨none, some (newFile false upper e ++ join (t "\n") ([] :: b :: L))⟩, some (b :: L)⟩ := by
      unfold step prepare
      simp [append, Function.update_of_ne hne, he]
      exact ⟨_, rfl⟩
    obtain ⟨d', h2⟩ := h2
    refine ⟨_, _, by rw [run, loop, h1]; dsimp only; rw [loop, h2]; rfl, by simp; rfl, ?_⟩
    exact hm.trans ((infix_join (List.mem_cons_of_mem _ hl)).trans (List.suffix_append _ _).isInfix)

/-- With `--old`, a section missing in a C++ source makes the script die: it opens the C source, which is not there. -/
theorem codegen_old_violates (upper : Text → Text) (mv : Text → Bool) (e : Entry) (yaml : List Entry) (d : Dir) (u : Text) (h : d e.name = ⟨none, some u⟩) (hs : e.stream = true)
    (hu : ¬ streamMark e.name <:+: u) : ∃ d', run true upper mv (e :: yaml) d = .died .fileNotFound d' := by
  refine ⟨d, ?_⟩
  have hp : prepare true upper e ⟨d, none⟩ = ⟨d, some (additions true upper e u)⟩ := by unfold prepare; simp only [h]
  have ha : additions true upper e u ≠ [] := fun k => hu ((additions_nil.1 k).2 hs)
  rw [run, loop]
  unfold step
  rw [hp]
  cases hc : additions true upper e u with
  | nil => exact absurd hc ha
  | cons a l => simp [append, h]

/-- The declaration of a reference implementation has no space between the macro and the type. -/
theorem codegen_ref_violates (e : Entry) : ∃ l ∈ ref e, "DONTOPTIMIZEint".toList <+: l := by
  refine ⟨declRef e.name ++ t " {", by simp [ref], t " ti_" ++ e.name ++ t "_ref(int size, TI_REAL const *const *inputs, TI_REAL const *options, TI_REAL *const *outputs)" ++ t " {", ?_⟩
  have h1 : t "DONTOPTIMIZEint ti_" = "DONTOPTIMIZEint".toList ++ t " ti_" := by decide +kernel
  rw [declRef, h1]
  simp only [List.append_assoc]

theorem nextInclude_block (inc : List Text) (l : Text) (rest : List Text) (hi : ∀ a ∈ inc, t "#include" <:+: a) (hl : ¬ t "#include" <:+: l) (i : Nat) :
    nextInclude true i (inc ++ l :: rest) = i + inc.length := by
  induction inc generalizing i with
  | nil => rw [List.nil_append, nextInclude, if_neg (by rwa [search_iff])]; simp
  | cons a inc ih =>
    rw [List.cons_append, nextInclude, if_pos (by rw [search_iff]; exact hi a (by simp)), ih (fun b hb => hi b (by simp [hb]))]
    simp; omega

theorem nextInclude_found (top inc : List Text) (l : Text) (rest : List Text) (ht : ∀ a ∈ top, ¬ t "#include" <:+: a) (hne : inc ≠ [])
    (hi : ∀ a ∈ inc, t "#include" <:+: a) (hl : ¬ t "#include" <:+: l) (i : Nat) :
    nextInclude false i (top ++ inc ++ l :: rest) = i + (top ++ inc).length := by
  induction top generalizing i with
  | nil =>
    obtain ⟨a, inc, rfl⟩ := List.exists_cons_of_ne_nil hne
    rw [List.nil_append, List.cons_append, nextInclude, if_pos (by rw [search_iff]; exact hi a (by simp)),
      nextInclude_block inc l rest (fun b hb => hi b (by simp [hb])) hl]
    simp; omega
  | cons a top ih =>
    rw [List.cons_append, List.cons_append, nextInclude, if_neg (by rw [search_iff]; exact ht a (by simp)), if_neg (by simp),
      ih (fun b hb => ht b (by simp [hb]))]
    simp; omega

theorem nextInclude_true (ls : List Text) (h : ∀ a ∈ ls, t "#include" <:+: a) (i : Nat) : nextInclude true i ls = 0 := by
  induction ls generalizing i with
  | nil => rfl
  | cons a ls ih => rw [nextInclude, if_pos (by rw [search_iff]; exact h a (by simp)), ih fun b hb => h b (by simp [hb])]

theorem nextInclude_none (top inc : List Text) (ht : ∀ a ∈ top, ¬ t "#include" <:+: a) (hi : ∀ a ∈ inc, t "#include" <:+: a) (i : Nat) :
    nextInclude false i (top ++ inc) = 0 := by
  induction top generalizing i with
  | nil =>
    cases inc with
    | nil => rfl
    | cons a inc => rw [List.nil_append, nextInclude, if_pos (by rw [search_iff]; exact hi a (by simp)), nextInclude_true _ fun b hb => hi b (by simp [hb])]
  | cons a top ih =>
    rw [List.cons_append, nextInclude, if_neg (by rw [search_iff]; exact ht a (by simp)), if_neg (by simp), ih fun b hb => ht b (by simp [hb])]

/-- Where a renamed file gets its new includes: right after the first block of `#include` lines if something follows it, otherwise (no include at all, or
the file ends with them) at the very top. The new lines are the five headers the file does not have yet and an empty one. -/
theorem codegen_headers (top inc : List Text) (ht : ∀ a ∈ top, ¬ t "#include" <:+: a) (hi : ∀ a ∈ inc, t "#include" <:+: a) :
    (∀ l rest, inc ≠ [] → ¬ t "#include" <:+: l →
      ∃ new, addHeaders (top ++ inc ++ l :: rest) = top ++ inc ++ new ++ l :: rest ∧
        ∀ h, h ∈ new ↔ h = t "\n" ∨ (h ∈ headFiles ∧ h ∉ top ++ inc ++ l :: rest)) ∧
    ∃ new, addHeaders (top ++ inc) = new ++ (top ++ inc) ∧ ∀ h, h ∈ new ↔ h = t "\n" ∨ (h ∈ headFiles ∧ h ∉ top ++ inc) := by
  have hn : t "\n" ∈ headFiles := by decide +kernel
  have hmem : ∀ (ls : List Text) (h : Text), h ∈ headFiles.filter (fun h => h == t "\n" || !ls.contains h) ↔ h = t "\n" ∨ (h ∈ headFiles ∧ h ∉ ls) := by
    intro ls h
    simp only [List.mem_filter, Bool.or_eq_true, beq_iff_eq, Bool.not_eq_true', List.contains_eq_mem, decide_eq_false_iff_not]
    constructor
    · rintro ⟨a, b | b⟩
      · exact .inl b
      · exact .inr ⟨a, b⟩
    · rintro (rfl | ⟨a, b⟩)
      · exact ⟨hn, .inl rfl⟩
      · exact ⟨a, .inr b⟩
  constructor
  · intro l rest hne hl
    refine ⟨_, ?_, hmem _⟩
    rw [addHeaders, nextInclude_found top inc l rest ht hne hi hl, Nat.zero_add, List.take_left, List.drop_left]
  · refine ⟨_, ?_, hmem _⟩
    rw [addHeaders, nextInclude_none top inc ht hi]
    simp

/-! ### Instances -/

example := (codegen_headers [t "/* x */\n"] [t "#include <new>\n"] (by simp only [← search_iff]; decide +kernel) (by simp only [← search_iff]; decide +kernel)).1
  (t "int f;\n") [] (by simp) (by rw [← search_iff]; decide +kernel)

/-- An indicator with one input, one option and one output. -/
def plain (n : String) (ref stream : Bool) : Entry := ⟨t n, [t "series"], [t "period"], [t n], ref, stream⟩

/-- `aa.cc` with a reference implementation, and nothing else. -/
def oneFile : Dir := Function.update (fun _ => ⟨none, none⟩) (t "aa") ⟨none, some (t "#include <new>\nint ti_aa_ref();\n")⟩

theorem oneFile_single : Single oneFile := single_update (fun _ => .inl rfl) (.inl rfl)

example : ∃ s', run false id (fun _ => true) [plain "aa" true true, plain "bb" true false] oneFile = .done s' :=
  codegen_finishes_partial id _ (fun _ => rfl) (plain "aa" true true) [plain "bb" true false] oneFile oneFile_single _ (.inr rfl)
example := codegen_stale_violates id (fun _ => true) (plain "aa" true true) (plain "bb" true false) oneFile (t "#include <new>\nint ti_aa_ref();\n") (by decide +kernel) rfl rfl
  (by rw [← search_iff]; decide +kernel) (by decide +kernel)
example := codegen_old_violates id (fun _ => true) (plain "aa" true true) [] oneFile (t "#include <new>\nint ti_aa_ref();\n") rfl rfl (by rw [← search_iff]; decide +kernel)
example : addHeaders (readlines (t "/* x */\n#include <new>\nint f;\n")) = [t "/* x */\n", t "#include <new>\n", t "#include \"../utils/log.h\"\n",
    t "#include \"../utils/minmax.h\"\n", t "#include \"../utils/ringbuf.hh\"\n", t "\n", t "#include <algorithm>\n", t "int f;\n"] := by decide +kernel
example : declRef (t "aa") = t "DONTOPTIMIZEint ti_aa_ref(int size, TI_REAL const *const *inputs, TI_REAL const *options, TI_REAL *const *outputs)" := by decide +kernel
example : unpackInputs ⟨t "vwma", [t "close", t "volume"], [], [], false, false⟩ =
    t "TI_REAL const *const close = inputs[0];\n    TI_REAL const *const volume = inputs[1];" := by decide +kernel

end Verif.Codegen
