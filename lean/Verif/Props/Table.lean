/-
C01 (name lookup) and C02 (streams are served by the indicator that made them).
`d` is the dictionary read from `indicators.yaml`: any list of distinct NUL-free names.
-/
import Verif.Proof.Table

namespace Verif
variable {E R ρ ω : Type}

/-- A name in the dictionary is found, at the table entry that carries that very name and its data, and the search
loop ends by itself (any cut-off beyond the number of entries gives the same answer). -/
theorem find_present (d : List (Name × E)) (hn : ∀ e ∈ d, NulFree e.1) (hd : (d.map Prod.fst).Nodup)
    (hb : d.length ≤ 2147483647) (name : Name) (data : E) (hmem : (name, data) ∈ d) :
    ∃ i : Nat, rd (tiIndicators d) i = .ok (some (name, data)) ∧
      ∀ fuel, d.length < fuel → tiFind d name fuel = .ok (.at i) := by
  have hname : NulFree name := hn _ hmem
  have hk : ∀ i (h : i < (pySorted d).length), ((pySorted d)[i]).1 = name →
      (pySorted d)[i] = (name, data) ∧ rd (tiIndicators d) (i : Int) = .ok (some (name, data)) := by
    intro i h hi
    have hmem' : (pySorted d)[i] ∈ d := (pySorted_perm d).mem_iff.1 (List.getElem_mem h)
    have he : (pySorted d)[i] = (name, data) :=
      List.inj_on_of_nodup_map hd hmem' hmem (by simpa using hi)
    exact ⟨he, by unfold tiIndicators; rw [rd_append_left _ _ i (by simpa using h)]; simp [he]⟩
  have huniq : ∀ i j (hi : i < (pySorted d).length) (hj : j < (pySorted d).length),
      ((pySorted d)[i]).1 = name → ((pySorted d)[j]).1 = name → i = j := by
    intro i j hi hj ei ej
    have hnd : (pySorted d).Nodup := ((pySorted_perm d).nodup_iff).2 (List.Nodup.of_map _ hd)
    exact (hnd.getElem_inj_iff).1 ((hk i hi ei).1.trans (hk j hj ej).1.symm)
  rcases tiFind_spec d hn hd hb name hname (d.length + 1) (by omega) with ⟨i, hi, ei, _⟩ | ⟨h, _⟩
  · refine ⟨i, (hk i hi ei).2, fun fuel hf => ?_⟩
    rcases tiFind_spec d hn hd hb name hname fuel hf with ⟨j, hj, ej, hj'⟩ | ⟨h, _⟩
    · rw [hj', huniq i j hi hj ei ej]
    · exact absurd rfl (h _ hmem)
  · exact absurd rfl (h _ hmem)

/-- A name that is not in the dictionary is reported absent (the null pointer). -/
theorem find_absent (d : List (Name × E)) (hn : ∀ e ∈ d, NulFree e.1) (hd : (d.map Prod.fst).Nodup)
    (hb : d.length ≤ 2147483647) (name : Name) (hname : NulFree name) (h : name ∉ d.map Prod.fst)
    (fuel : Nat) (hf : d.length < fuel) : tiFind d name fuel = .ok .absent := by
  rcases tiFind_spec d hn hd hb name hname fuel hf with ⟨i, hi, ei, _⟩ | ⟨_, h'⟩
  · exact absurd (ei ▸ List.mem_map_of_mem (f := Prod.fst)
      ((pySorted_perm d).mem_iff.1 (List.getElem_mem hi))) h
  · exact h'

/-- The life of a stream made by `ti_X_stream_new` and served through `ti_stream_run`, `ti_stream_get_progress`,
`ti_stream_get_info` and `ti_stream_free` is the life it has when served by the functions of `X` directly: same
return code, progress, outputs and undefined behaviour (if any) after every history of calls, and
`ti_stream_get_info` is the entry of `X`. -/
theorem stream_dispatch (env : Name → Indicator R ρ ω) (d : List (Name × Bool)) (hd : (d.map Prod.fst).Nodup)
    (X : Name) (hX : (X, true) ∈ d) (o : Nat → R) (hnew : (env X).new o ≠ .ok (.fail .okay))
    (chunks : List (List ρ)) :
    tiSession env d X o chunks =
      match (env X).session o chunks with
      | .error e => .error e
      | .ok (r, p, out) => .ok (r, p, if r = .okay then some (some (X, true)) else none, out) := by
  unfold tiSession newStream Indicator.session
  cases h : (env X).new o with
  | error e => rfl
  | ok r =>
    cases r with
    | fail r =>
      have hr : r ≠ .okay := fun e => hnew (by rw [h, e])
      simp only [bind_ok, hr, if_false]; rfl
    | made k p s =>
      simp only [bind_ok]
      rw [tiStreamRuns_spec env d hd X hX k chunks p s]
      cases h2 : (env X).runs k chunks p s with
      | error e => rfl
      | ok r =>
        obtain ⟨p', s', out⟩ := r
        simp only [bind_ok, tiStreamInfo, tiStreamFree]
        rw [enumIndex_spec d hd (X, true) hX]
        simp only [bind_ok, entryFn, freeStream, if_true]
        rfl

/-- An entry without a stream has null stream functions: its name never serves a stream (calling through the null
pointer would be undefined, so a stream can only come from an entry that has one). -/
theorem no_stream_entry (d : List (Name × Bool)) (hd : (d.map Prod.fst).Nodup) (X : Name) (hX : (X, false) ∈ d) :
    (rd (tiIndicators d) (enumIndex d X)).bind entryFn = .error .badPtr := by
  rw [enumIndex_spec d hd (X, false) hX]; rfl

/-- The names in `indicators.yaml` are distinct and NUL-free. -/
theorem yaml_ok : (indicatorsYaml.map Prod.fst).Nodup ∧ (∀ e ∈ indicatorsYaml, NulFree e.1) ∧
    indicatorsYaml.length = 161 := by
  unfold NulFree; decide +kernel

/-- In the shipped table, `ti_find_indicator` finds exactly the names of `indicators.yaml`. -/
theorem find_shipped (name : Name) (hname : NulFree name) :
    (∃ i : Nat, tiFind indicatorsYaml name 162 = .ok (.at i)) ↔ name ∈ indicatorsYaml.map Prod.fst := by
  obtain ⟨hd, hn, hl⟩ := yaml_ok
  constructor
  · rintro ⟨i, hi⟩
    by_contra h
    rw [find_absent _ hn hd (by omega) name hname h 162 (by omega)] at hi
    simp at hi
  · intro h
    obtain ⟨e, he, rfl⟩ := List.mem_map.1 h
    obtain ⟨i, _, hi⟩ := find_present _ hn hd (by omega) e.1 e.2 he
    exact ⟨i, hi 162 (by omega)⟩

/- Concrete cases. -/
example : tiFind indicatorsYaml (bytes "abands") 162 = .ok (.at 0) := by decide +kernel
example : tiFind indicatorsYaml (bytes "zlema") 162 = .ok (.at 160) := by decide +kernel
example : tiFind indicatorsYaml (bytes "sma") 162 = .ok (.at (enumIndex indicatorsYaml (bytes "sma"))) := by decide +kernel
example : tiFind indicatorsYaml (bytes "sm") 162 = .ok .absent := by decide +kernel
example : tiFind indicatorsYaml (bytes "") 162 = .ok .absent := by decide +kernel
example : tiFind ([] : List (Name × Bool)) (bytes "sma") 1 = .ok .absent := by decide +kernel
example : (bytes "sma", true) ∈ indicatorsYaml ∧ (bytes "ema", false) ∈ indicatorsYaml := by decide +kernel

end Verif
