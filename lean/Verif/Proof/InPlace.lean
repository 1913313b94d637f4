/- Calls in place: general lemmas. -/
import Verif.Model.InPlace
import Verif.Core.Loops
import Mathlib.Tactic.Linarith

namespace Verif
set_option linter.unusedSectionVars false
variable {R ρ ω σ : Type}

theorem overWith_nil (put : ρ → ω → ρ) (rs : List ρ) : overWith put rs [] = rs := by cases rs <;> rfl

theorem overWith_length (put : ρ → ω → ρ) : ∀ (rs : List ρ) (ys : List ω), (overWith put rs ys).length = rs.length
  | [], [] => rfl
  | [], _ :: _ => rfl
  | _ :: _, [] => rfl
  | r :: rs, y :: ys => by simp only [overWith, List.length_cons, overWith_length put rs ys]

theorem overWith_ge (put : ρ → ω → ρ) : ∀ (rs : List ρ) (ys : List ω) (i : Nat), ys.length ≤ i → (overWith put rs ys)[i]? = rs[i]?
  | [], [], _, _ => rfl
  | [], _ :: _, _, _ => rfl
  | _ :: _, [], _, _ => rfl
  | r :: rs, y :: ys, 0, h => by simp at h
  | r :: rs, y :: ys, i + 1, h => by
    simp only [overWith, List.getElem?_cons_succ]
    exact overWith_ge put rs ys i (by simpa using h)

theorem rd_of_get? {α : Type} {l l' : List α} (i : Nat) (h : l[i]? = l'[i]?) : rd l (i : Int) = rd l' (i : Int) := by
  unfold rd
  by_cases h1 : i < l.length
  · have h2 : i < l'.length := by
      by_contra hc
      rw [List.getElem?_eq_getElem h1, List.getElem?_eq_none (by omega)] at h
      cases h
    rw [dif_pos ⟨by omega, by simpa using h1⟩, dif_pos ⟨by omega, by simpa using h2⟩]
    rw [List.getElem?_eq_getElem h1, List.getElem?_eq_getElem h2] at h
    simp only [Option.some.injEq] at h
    simpa using h
  · have h2 : ¬ i < l'.length := by
      intro hc
      rw [List.getElem?_eq_getElem hc, List.getElem?_eq_none (by omega)] at h
      cases h
    rw [dif_neg (by simpa using h1), dif_neg (by simpa using h2)]

/-- What has not been overwritten is still the input. -/
theorem rd_over (put : ρ → ω → ρ) (rs : List ρ) (ys : List ω) (i : Int) (h : (ys.length : Int) ≤ i) : rd (overWith put rs ys) i = rd rs i := by
  obtain ⟨n, rfl⟩ : ∃ n : Nat, i = n := ⟨i.toNat, by omega⟩
  exact rd_of_get? n (overWith_ge put rs ys n (by omega))

/-- Two loops whose bodies agree on the states that satisfy an invariant. -/
theorem forUp_congr {f g : Int → σ → M σ} (I : Int → σ → Prop) {lo hi : Int} {s : σ} (h0 : I lo s)
    (hs : ∀ i s s', lo ≤ i → i < hi → I i s → f i s = .ok s' → I (i + 1) s') (he : ∀ i s, lo ≤ i → i < hi → I i s → f i s = g i s) :
    forUp lo hi s f = forUp lo hi s g := by
  unfold forUp
  have gen : ∀ (n : Nat) (i : Int) (s : σ), lo ≤ i → i + n ≤ max lo hi → I i s → iter f n i s = iter g n i s := by
    intro n
    induction n with
    | zero => intros; rfl
    | succ n ih =>
      intro i s h1 h2 h3
      have hi' : i < hi := by omega
      simp only [iter, ← he i s h1 hi' h3]
      cases hf : f i s with
      | error e => rfl
      | ok s' => exact ih (i + 1) s' (by omega) (by omega) (hs i s s' h1 hi' h3 hf)
  exact gen _ lo s le_rfl (by omega) h0

/-- No loop of a `stream_run` writes more than one value per bar. -/
def OneEach (phs : List (Phase ρ σ ω)) : Prop := ∀ ph ∈ phs, ∀ p r s s' o, ph.body p r s = .ok (s', o) → o.length ≤ 1

theorem loopIP_eq (put : ρ → ω → ρ) (ph : Phase ρ σ ω) (h1 : ∀ p r s s' o, ph.body p r s = .ok (s', o) → o.length ≤ 1) (rows : List ρ) :
    ∀ (n i : Nat) (p : Int) (s : σ) (out : List ω), i + n = rows.length → out.length ≤ i →
      Phase.loopIP.go put ph rows n i p s out = match ph.loop (rows.drop i) p s with
        | .error e => .error e
        | .ok (rs', p', s', o) => .ok (rows.length - rs'.length, p', s', out ++ o) := by
  intro n
  induction n with
  | zero =>
    intro i p s out hn ho
    rw [List.drop_eq_nil_of_le (by omega)]
    simp only [Phase.loopIP.go, Phase.loop, List.length_nil, List.append_nil]
    simp
    omega
  | succ n ih =>
    intro i p s out hn ho
    have hi : i < rows.length := by omega
    rw [List.drop_eq_getElem_cons hi]
    simp only [Phase.loopIP.go, Phase.loop]
    by_cases hc : ph.cond p = true
    · rw [if_pos hc, if_pos hc, rd_over put rows out i (by omega)]
      have hr : rd rows (i : Int) = .ok rows[i] := by
        unfold rd
        rw [dif_pos ⟨by omega, by simpa using hi⟩]
        simp
      rw [hr]
      dsimp only
      cases hb : ph.body p rows[i] s with
      | error e => rfl
      | ok q =>
        dsimp only
        have hl := h1 p _ s q.1 q.2 hb
        rw [ih (i + 1) (p + 1) q.1 (out ++ q.2) (by omega) (by rw [List.length_append]; omega)]
        cases ph.loop (rows.drop (i + 1)) (p + 1) q.1 with
        | error e => rfl
        | ok t => simp only [List.append_assoc]
    · rw [if_neg hc, if_neg hc]
      dsimp only
      rw [← List.drop_eq_getElem_cons hi, List.length_drop, List.append_nil]
      congr 2
      omega

theorem loop_rest (ph : Phase ρ σ ω) : ∀ (rs : List ρ) (p : Int) (s : σ) (rs' : List ρ) (p' : Int) (s' : σ) (o : List ω),
    (∀ p r s s' o, ph.body p r s = .ok (s', o) → o.length ≤ 1) →
    ph.loop rs p s = .ok (rs', p', s', o) → ∃ m, m ≤ rs.length ∧ rs' = rs.drop m ∧ o.length ≤ m
  | [], p, s, rs', p', s', o, _, h => by
    simp only [Phase.loop, Except.ok.injEq, Prod.mk.injEq] at h
    obtain ⟨rfl, _, _, rfl⟩ := h
    exact ⟨0, le_rfl, rfl, le_rfl⟩
  | r :: rs, p, s, rs', p', s', o, h1, h => by
    simp only [Phase.loop] at h
    split at h
    · cases hb : ph.body p r s with
      | error e => rw [hb] at h; cases h
      | ok q =>
        rw [hb] at h
        dsimp only at h
        cases hl : ph.loop rs (p + 1) q.1 with
        | error e => rw [hl] at h; cases h
        | ok t =>
          rw [hl] at h
          simp only [Except.ok.injEq, Prod.mk.injEq] at h
          obtain ⟨m, g1, g2, g3⟩ := loop_rest ph rs (p + 1) q.1 t.1 t.2.1 t.2.2.1 t.2.2.2 h1 hl
          obtain ⟨rfl, _, _, rfl⟩ := h
          refine ⟨m + 1, by simpa using g1, by simpa using g2, ?_⟩
          have := h1 p r s q.1 q.2 hb
          rw [List.length_append]
          exact (Nat.add_le_add this g3).trans (by omega)
    · simp only [Except.ok.injEq, Prod.mk.injEq] at h
      obtain ⟨rfl, _, _, rfl⟩ := h
      exact ⟨0, by simp, rfl, le_rfl⟩

theorem runPhasesIP_eq (put : ρ → ω → ρ) : ∀ (phs : List (Phase ρ σ ω)), OneEach phs → ∀ (rows : List ρ) (i : Nat) (p : Int) (s : σ)
    (out : List ω), i ≤ rows.length → out.length ≤ i → runPhasesIP put phs rows i p s out = match runPhases phs (rows.drop i) p s with
      | .error e => .error e
      | .ok (p', s', o) => .ok (p', s', out ++ o)
  | [], _, rows, i, p, s, out, _, _ => by simp only [runPhasesIP, runPhases, List.append_nil]
  | ph :: phs, h1, rows, i, p, s, out, hi, ho => by
    have hph := h1 ph (by simp)
    simp only [runPhasesIP, runPhases, Phase.loopIP]
    rw [loopIP_eq put ph hph rows _ i p s out (by omega) ho]
    cases hl : ph.loop (rows.drop i) p s with
    | error e => rfl
    | ok t =>
      obtain ⟨rs', p', s', o⟩ := t
      obtain ⟨m, g1, g2, g3⟩ := loop_rest ph _ p s rs' p' s' o hph hl
      dsimp only
      rw [List.length_drop] at g1
      have e : rows.length - rs'.length = i + m := by rw [g2, List.length_drop, List.length_drop]; omega
      rw [e, runPhasesIP_eq put phs (fun q hq => h1 q (by simp [hq])) rows (i + m) p' s' (out ++ o) (by omega) (by rw [List.length_append]; omega),
        g2, List.drop_drop]
      cases runPhases phs (rows.drop (i + m)) p' s' with
      | error e => rfl
      | ok u => simp only [List.append_assoc]

theorem OneEach.nil : OneEach ([] : List (Phase ρ σ ω)) := fun _ h => by cases h
theorem OneEach.cons {ph : Phase ρ σ ω} {phs : List (Phase ρ σ ω)} (h : ∀ p r s s' o, ph.body p r s = .ok (s', o) → o.length ≤ 1)
    (hs : OneEach phs) : OneEach (ph :: phs) := by
  intro q hq
  rcases List.mem_cons.1 hq with rfl | hq
  · exact h
  · exact hs q hq

/-- A stream all of whose loops write at most one value per bar, and read the bar before they do, may overwrite its input. -/
theorem sessionIP_eq (I : Indicator R ρ ω) (put : ρ → ω → ρ) (o : Nat → R) (h : ∀ k, OneEach (I.phases k)) (chunks : List (List ρ)) :
    I.sessionIP put o chunks = I.session o chunks := by
  unfold Indicator.sessionIP Indicator.session
  cases I.new o with
  | error e => rfl
  | ok q =>
    cases q with
    | fail r => rfl
    | made k p s =>
      dsimp only
      have gen : ∀ (cs : List (List ρ)) (p : Int) (s : I.σ), Indicator.sessionIP.go I put k cs p s = match I.runs k cs p s with
          | .error e => .error e
          | .ok (p', _, out) => .ok (p', out) := by
        intro cs
        induction cs with
        | nil => intros; rfl
        | cons c cs ih =>
          intro p s
          simp only [Indicator.sessionIP.go, Indicator.runs]
          rw [runPhasesIP_eq put _ (h k) c 0 p s [] (by omega) (by simp), List.drop_zero]
          cases runPhases (I.phases k) c p s with
          | error e => rfl
          | ok t =>
            simp only [List.nil_append]
            rw [ih]
            cases I.runs k cs t.1 t.2.1 with
            | error e => rfl
            | ok u => rfl
      rw [gen]
      cases I.runs k chunks p s with
      | error e => rfl
      | ok u => rfl

/-! ### Reading again -/

theorem overWith_keep : ∀ (rows : List ρ) (ys : List ω), overWith (fun r _ => r) rows ys = rows
  | [], [] => rfl
  | [], _ :: _ => rfl
  | _ :: _, [] => rfl
  | r :: rs, y :: ys => by simp only [overWith, overWith_keep rs ys]

/-- What a loop stores is what it read. -/
def Rereads (late : Int → ρ → σ → σ) (phs : List (Phase ρ σ ω)) : Prop :=
  ∀ ph ∈ phs, ∀ p r s s' o, ph.body p r s = .ok (s', o) → ph.cond p = true → late p r s' = s'

theorem loopLate_keep (late : Int → ρ → σ → σ) (ph : Phase ρ σ ω)
    (h : ∀ p r s s' o, ph.body p r s = .ok (s', o) → ph.cond p = true → late p r s' = s') (rows : List ρ) :
    ∀ (n i : Nat) (p : Int) (s : σ) (out : List ω),
      Phase.loopLate.go (fun r _ => r) late ph rows n i p s out = Phase.loopIP.go (fun r _ => r) ph rows n i p s out := by
  intro n
  induction n with
  | zero => intros; rfl
  | succ n ih =>
    intro i p s out
    simp only [Phase.loopLate.go, Phase.loopIP.go, overWith_keep]
    split
    · rename_i hc
      cases hr : rd rows (i : Int) with
      | error e => rfl
      | ok r =>
        dsimp only
        cases hb : ph.body p r s with
        | error e => rfl
        | ok q =>
          dsimp only
          rw [h p r s q.1 q.2 hb hc, ih]
    · rfl

/-- When the outputs go elsewhere, a stream that reads its bars again is the stream. -/
theorem sessionLate_keep (I : Indicator R ρ ω) (late : Int → ρ → I.σ → I.σ) (o : Nat → R) (h1 : ∀ k, OneEach (I.phases k))
    (h2 : ∀ k, Rereads late (I.phases k)) (chunks : List (List ρ)) :
    I.sessionLate (fun r _ => r) late o chunks = I.session o chunks := by
  rw [← sessionIP_eq I (fun r _ => r) o h1 chunks]
  have run : ∀ (phs : List (Phase ρ I.σ ω)), Rereads late phs → ∀ (rows : List ρ) (i : Nat) (p : Int) (s : I.σ) (out : List ω),
      runPhasesLate (fun r _ => r) late phs rows i p s out = runPhasesIP (fun r _ => r) phs rows i p s out := by
    intro phs
    induction phs with
    | nil => intros; rfl
    | cons ph phs ih =>
      intro h rows i p s out
      simp only [runPhasesLate, runPhasesIP, Phase.loopLate, Phase.loopIP]
      rw [loopLate_keep late ph (h ph (by simp))]
      cases Phase.loopIP.go (fun r _ => r) ph rows (rows.length - i) i p s out with
      | error e => rfl
      | ok t => exact ih (fun q hq => h q (by simp [hq])) _ _ _ _ _
  unfold Indicator.sessionLate Indicator.sessionIP
  cases I.new o with
  | error e => rfl
  | ok q =>
    cases q with
    | fail r => rfl
    | made k p s =>
      dsimp only
      have gen : ∀ (cs : List (List ρ)) (p : Int) (s : I.σ),
          Indicator.sessionLate.go I (fun r _ => r) late k cs p s = Indicator.sessionIP.go I (fun r _ => r) k cs p s := by
        intro cs
        induction cs with
        | nil => intros; rfl
        | cons c cs ih =>
          intro p s
          simp only [Indicator.sessionLate.go, Indicator.sessionIP.go, run _ (h2 k), ih]
      rw [gen]

theorem Rereads.nil {late : Int → ρ → σ → σ} : Rereads late ([] : List (Phase ρ σ ω)) := fun _ h => by cases h
theorem Rereads.cons {late : Int → ρ → σ → σ} {ph : Phase ρ σ ω} {phs : List (Phase ρ σ ω)}
    (h : ∀ p r s s' o, ph.body p r s = .ok (s', o) → ph.cond p = true → late p r s' = s') (hs : Rereads late phs) : Rereads late (ph :: phs) := by
  intro q hq
  rcases List.mem_cons.1 hq with rfl | hq
  · exact h
  · exact hs q hq

end Verif
