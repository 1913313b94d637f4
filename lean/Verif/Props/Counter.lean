/- C73: how many bars a stream can be fed. -/
import Verif.Model.Counter
import Verif.Props.Progress
import Verif.Props.Sum
import Verif.Props.Ema

namespace Verif
set_option linter.unusedSectionVars false
variable {R ρ σ ω : Type}

/-- `INT_MAX`. -/
local notation "imax" => (2147483647 : Int)

theorem i32_in {p : Int} (h1 : -2147483648 ≤ p) (h2 : p ≤ imax) : i32 p = .ok p := by unfold i32; rw [if_pos ⟨h1, h2⟩]
theorem i32_out {p : Int} (h2 : imax < p) : i32 p = .error .intRange := by unfold i32; rw [if_neg (by omega)]

theorem loop_mono (ph : Phase ρ σ ω) : ∀ (rs : List ρ) (p : Int) (s : σ) (r' : List ρ × Int × σ × List ω), ph.loop rs p s = .ok r' → p ≤ r'.2.1
  | [], p, s, r', h => by
    simp only [Phase.loop, Except.ok.injEq] at h
    subst h
    exact le_refl _
  | r :: rs, p, s, r', h => by
    simp only [Phase.loop] at h
    split at h
    · cases hb : ph.body p r s with
      | error e => rw [hb] at h; cases h
      | ok q =>
        rw [hb] at h
        dsimp only at h
        cases hl : ph.loop rs (p + 1) q.1 with
        | error e => rw [hl] at h; cases h
        | ok t =>
          rw [hl] at h
          cases h
          have := loop_mono ph rs (p + 1) q.1 t hl
          show p ≤ t.2.1
          omega
    · cases h; exact le_refl _

theorem loopInt_eq (ph : Phase ρ σ ω) : ∀ (rs : List ρ) (p : Int) (s : σ) (r' : List ρ × Int × σ × List ω), -2147483648 ≤ p → p ≤ imax →
    ph.loop rs p s = .ok r' → p ≤ r'.2.1 ∧ ph.loopInt rs p s = if r'.2.1 ≤ imax then .ok r' else .error .intRange
  | [], p, s, r', h1, h2, h => by
    simp only [Phase.loop, Except.ok.injEq] at h
    subst h
    exact ⟨le_refl _, by simp only [Phase.loopInt]; rw [if_pos h2]⟩
  | r :: rs, p, s, r', h1, h2, h => by
    simp only [Phase.loop] at h
    simp only [Phase.loopInt]
    by_cases hc : ph.cond p = true
    · rw [if_pos hc] at h ⊢
      cases hb : ph.body p r s with
      | error e => rw [hb] at h; cases h
      | ok q =>
        rw [hb] at h
        dsimp only at h ⊢
        cases hl : ph.loop rs (p + 1) q.1 with
        | error e => rw [hl] at h; cases h
        | ok t =>
          rw [hl] at h
          simp only [Except.ok.injEq] at h
          subst h
          have hp := loop_mono ph rs (p + 1) q.1 t hl
          by_cases hm : p + 1 ≤ imax
          · obtain ⟨g1, g2⟩ := loopInt_eq ph rs (p + 1) q.1 t (by omega) hm hl
            refine ⟨by show p ≤ t.2.1; omega, ?_⟩
            rw [i32_in (by omega) hm]
            dsimp only
            rw [g2]
            by_cases ht : t.2.1 ≤ imax
            · simp only [if_pos ht]
            · simp only [if_neg ht]
          · have hge := hp
            refine ⟨by show p ≤ t.2.1; omega, ?_⟩
            rw [i32_out (by omega)]
            dsimp only
            rw [if_neg (show ¬ t.2.1 ≤ imax by omega)]
    · rw [if_neg hc] at h ⊢
      simp only [Except.ok.injEq] at h
      subst h
      exact ⟨le_refl _, by rw [if_pos h2]⟩

theorem runPhases_mono : ∀ (phs : List (Phase ρ σ ω)) (rs : List ρ) (p : Int) (s : σ) (r' : Int × σ × List ω),
    runPhases phs rs p s = .ok r' → p ≤ r'.1
  | [], rs, p, s, r', h => by
    simp only [runPhases, Except.ok.injEq] at h
    subst h
    exact le_refl _
  | ph :: phs, rs, p, s, r', h => by
    rw [runPhases] at h
    cases hl : ph.loop rs p s with
    | error e => rw [hl] at h; cases h
    | ok t =>
      rw [hl] at h
      dsimp only at h
      cases hr : runPhases phs t.1 t.2.1 t.2.2.1 with
      | error e => rw [hr] at h; cases h
      | ok u =>
        rw [hr] at h
        cases h
        exact le_trans (loop_mono ph rs p s t hl) (runPhases_mono phs t.1 t.2.1 t.2.2.1 u hr)

theorem runs_mono (I : Indicator R ρ ω) (k : I.κ) : ∀ (cs : List (List ρ)) (p : Int) (s : I.σ) (r' : Int × I.σ × List ω),
    I.runs k cs p s = .ok r' → p ≤ r'.1
  | [], p, s, r', h => by
    simp only [Indicator.runs, Except.ok.injEq] at h
    subst h
    exact le_refl _
  | c :: cs, p, s, r', h => by
    rw [Indicator.runs] at h
    cases hl : runPhases (I.phases k) c p s with
    | error e => rw [hl] at h; cases h
    | ok t =>
      rw [hl] at h
      dsimp only at h
      cases hr : I.runs k cs t.1 t.2.1 with
      | error e => rw [hr] at h; cases h
      | ok u =>
        rw [hr] at h
        cases h
        exact le_trans (runPhases_mono _ c p s t hl) (runs_mono I k cs t.1 t.2.1 u hr)

theorem runPhasesInt_eq : ∀ (phs : List (Phase ρ σ ω)) (rs : List ρ) (p : Int) (s : σ) (r' : Int × σ × List ω), -2147483648 ≤ p → p ≤ imax →
    runPhases phs rs p s = .ok r' → p ≤ r'.1 ∧ runPhasesInt phs rs p s = if r'.1 ≤ imax then .ok r' else .error .intRange
  | [], rs, p, s, r', h1, h2, h => by
    simp only [runPhases, Except.ok.injEq] at h
    subst h
    exact ⟨le_refl _, by simp only [runPhasesInt]; rw [if_pos h2]⟩
  | ph :: phs, rs, p, s, r', h1, h2, h => by
    rw [runPhases] at h
    rw [runPhasesInt]
    cases hl : ph.loop rs p s with
    | error e => rw [hl] at h; cases h
    | ok t =>
      rw [hl] at h
      dsimp only at h
      cases hr : runPhases phs t.1 t.2.1 t.2.2.1 with
      | error e => rw [hr] at h; cases h
      | ok u =>
        rw [hr] at h
        simp only [Except.ok.injEq] at h
        subst h
        obtain ⟨g1, g2⟩ := loopInt_eq ph rs p s t h1 h2 hl
        rw [g2]
        by_cases ht : t.2.1 ≤ imax
        · obtain ⟨k1, k2⟩ := runPhasesInt_eq phs t.1 t.2.1 t.2.2.1 u (by omega) ht hr
          refine ⟨by show p ≤ u.1; omega, ?_⟩
          rw [if_pos ht]
          dsimp only
          rw [k2]
          by_cases hu : u.1 ≤ imax
          · simp only [if_pos hu]
          · simp only [if_neg hu]
        · have hm : t.2.1 ≤ u.1 := runPhases_mono phs t.1 t.2.1 t.2.2.1 u hr
          refine ⟨by show p ≤ u.1; omega, ?_⟩
          rw [if_neg ht]
          dsimp only
          rw [if_neg (by omega)]

theorem runsInt_eq (I : Indicator R ρ ω) (k : I.κ) : ∀ (cs : List (List ρ)) (p : Int) (s : I.σ) (r' : Int × I.σ × List ω), -2147483648 ≤ p →
    p ≤ imax → I.runs k cs p s = .ok r' → p ≤ r'.1 ∧ I.runsInt k cs p s = if r'.1 ≤ imax then .ok r' else .error .intRange
  | [], p, s, r', h1, h2, h => by
    simp only [Indicator.runs, Except.ok.injEq] at h
    subst h
    exact ⟨le_refl _, by simp only [Indicator.runsInt]; rw [if_pos h2]⟩
  | c :: cs, p, s, r', h1, h2, h => by
    rw [Indicator.runs] at h
    rw [Indicator.runsInt]
    cases hl : runPhases (I.phases k) c p s with
    | error e => rw [hl] at h; cases h
    | ok t =>
      rw [hl] at h
      dsimp only at h
      cases hr : I.runs k cs t.1 t.2.1 with
      | error e => rw [hr] at h; cases h
      | ok u =>
        rw [hr] at h
        simp only [Except.ok.injEq] at h
        subst h
        obtain ⟨g1, g2⟩ := runPhasesInt_eq (I.phases k) c p s t h1 h2 hl
        rw [g2]
        by_cases ht : t.1 ≤ imax
        · obtain ⟨k1, k2⟩ := runsInt_eq I k cs t.1 t.2.1 u (by omega) ht hr
          refine ⟨by show p ≤ u.1; omega, ?_⟩
          rw [if_pos ht]
          dsimp only
          rw [k2]
          by_cases hu : u.1 ≤ imax
          · simp only [if_pos hu]
          · simp only [if_neg hu]
        · have hm : t.1 ≤ u.1 := runs_mono I k cs t.1 t.2.1 u hr
          refine ⟨by show p ≤ u.1; omega, ?_⟩
          rw [if_neg ht]
          dsimp only
          rw [if_neg (by omega)]

/-- What a stream does with an `int` counter, for every stream that agrees with its batch function: nothing changes up to
`INT_MAX + start` bars, however they are cut into chunks, and the counter overflows with the next. -/
theorem stream_counter {I : Indicator R ρ ω} {o : Nat → R} {s : Nat} (h : I.StreamEqBatch o s) (hs : s ≤ 2147483647) (chunks : List (List ρ)) :
    I.sessionInt o chunks = if (chunks.flatten.length : Int) ≤ 2147483647 + s then I.session o chunks else .error .intRange := by
  obtain ⟨out, _, hS⟩ := h chunks
  obtain ⟨out0, _, h0⟩ := h []
  rw [hS]
  unfold Indicator.session at hS h0
  unfold Indicator.sessionInt
  cases hn : I.new o with
  | error e => rw [hn] at hS; cases hS
  | ok q =>
    rw [hn] at hS h0
    cases q with
    | fail r =>
      simp only [Except.ok.injEq, Prod.mk.injEq] at hS
      obtain ⟨rfl, hp, rfl⟩ := hS
      rw [if_pos (by omega), ← hp]
    | made k p st =>
      simp only [Indicator.runs, Except.ok.injEq, Prod.mk.injEq, List.flatten_nil, List.length_nil, true_and] at h0
      have hp : p = -(s : Int) := by have := h0.1; push_cast at this; omega
      dsimp only at hS ⊢
      rw [i32_in (by omega) (by omega)]
      dsimp only
      cases hr : I.runs k chunks p st with
      | error e => rw [hr] at hS; cases hS
      | ok u =>
        rw [hr] at hS
        simp only [Except.ok.injEq, Prod.mk.injEq, true_and] at hS
        obtain ⟨_, g2⟩ := runsInt_eq I k chunks p st u (by omega) (by omega) hr
        rw [g2, hS.1]
        by_cases hb : (chunks.flatten.length : Int) ≤ 2147483647 + s
        · rw [if_pos (by omega), if_pos hb]
          obtain ⟨u1, u2, u3⟩ := u
          simp only at hS ⊢
          rw [hS.1, hS.2]
        · rw [if_neg (by omega), if_neg hb]

/-- Up to `INT_MAX` bars (and, after the start index, a few more) the counter does not matter: the theorems about sessions hold as they
stand. Partial: a stream cannot be fed for ever. -/
theorem stream_counter_partial {I : Indicator R ρ ω} {o : Nat → R} {s : Nat} (h : I.StreamEqBatch o s) (hs : s ≤ 2147483647)
    (chunks : List (List ρ)) (hl : chunks.flatten.length ≤ 2147483647) : I.sessionInt o chunks = I.session o chunks := by
  rw [stream_counter h hs, if_pos (by omega)]

/-- The first bar too many: a stream fed `INT_MAX + start + 1` bars or more, in whatever chunks, overflows its counter, whatever the
prices are. -/
theorem stream_counter_violates {I : Indicator R ρ ω} {o : Nat → R} {s : Nat} (h : I.StreamEqBatch o s) (hs : s ≤ 2147483647)
    (chunks : List (List ρ)) (hl : 2147483647 + s < chunks.flatten.length) : I.sessionInt o chunks = .error .intRange := by
  rw [stream_counter h hs, if_neg (by omega)]

/-- The hypotheses are met, for example by sma with period 3: two chunks whose sizes are `int`s are enough. -/
example : (sma (R := Rat)).sessionInt (opts [3]) [List.replicate 2147483647 1, List.replicate 3 1] = .error .intRange :=
  stream_counter_violates (sma_stream_eq_batch (opts [3]) 3 (by decide +kernel) (by decide)) (by decide) _ (by
    simp only [List.flatten_cons, List.flatten_nil, List.length_append, List.length_replicate, List.length_nil]
    decide)
example : (sma (R := Rat)).sessionInt (opts [3]) [[1, 2], [3, 4, 8]] = .ok (.okay, 3, [2, 3, 5]) := by decide +kernel

end Verif
