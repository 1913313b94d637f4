/-
C04: a stream writes one value per bar from progress 0 on, whatever the options it accepted.
-/
import Verif.Props.Progress

namespace Verif
set_option linter.unusedSectionVars false
set_option linter.unusedSimpArgs false
set_option linter.unreachableTactic false
set_option linter.unusedTactic false

section General
variable {R ρ σ ω : Type}

/-- From progress `p0` on: a body entered below 0 writes nothing, one entered at 0 or above writes one value. -/
def Phases.Emits : Int → List (Phase ρ σ ω) → Prop
  | _, [] => True
  | p0, ph :: phs => ∀ p, p0 ≤ p →
      (ph.cond p = true → ∀ r s s' o, ph.body p r s = .ok (s', o) → (o.length : Int) = if p < 0 then 0 else 1) ∧
      (ph.cond p = false → Phases.Emits p phs)

theorem loop_emits (ph : Phase ρ σ ω) (p0 : Int)
    (h : ∀ p, p0 ≤ p → ph.cond p = true → ∀ r s s' o, ph.body p r s = .ok (s', o) → (o.length : Int) = if p < 0 then 0 else 1) :
    ∀ (rs : List ρ) (p : Int) (s : σ) (rs' : List ρ) (p' : Int) (s' : σ) (o : List ω), p0 ≤ p → ph.loop rs p s = .ok (rs', p', s', o) →
      (o.length : Int) + max 0 p = max 0 p' ∧ p0 ≤ p' ∧ (rs' = [] ∨ ph.cond p' = false)
  | [], p, s, rs', p', s', o, hp, hl => by cases hl; simp [hp]
  | r :: rs, p, s, rs', p', s', o, hp, hl => by
    simp only [Phase.loop] at hl
    split at hl
    · rename_i hc
      cases hb : ph.body p r s with
      | error e => rw [hb] at hl; cases hl
      | ok q0 =>
        obtain ⟨q1, q2⟩ := q0
        rw [hb] at hl
        dsimp only at hl
        cases hl2 : ph.loop rs (p + 1) q1 with
        | error e => rw [hl2] at hl; cases hl
        | ok t0 =>
          obtain ⟨t1, t2, t3, t4⟩ := t0
          rw [hl2] at hl
          cases hl
          have h1 := loop_emits ph p0 h rs (p + 1) _ _ _ _ _ (by omega) hl2
          have h2 := h p hp hc r s _ _ hb
          refine ⟨?_, h1.2⟩
          have h3 := h1.1
          rw [List.length_append]
          push_cast
          rw [h2, ← h3]
          split <;> omega
    · rename_i hc
      cases hl
      simp [hp, hc]

theorem runPhases_emits : ∀ (phs : List (Phase ρ σ ω)) (p0 : Int) (_ : Phases.Emits p0 phs) (rs : List ρ) (p : Int) (s : σ) (p' : Int) (s' : σ)
    (o : List ω), p0 ≤ p → runPhases phs rs p s = .ok (p', s', o) → (o.length : Int) + max 0 p = max 0 p'
  | [], _, _, _, _, _, _, _, _, _, h => by cases h; simp
  | ph :: phs, p0, hc, rs, p, s, p', s', o, hp, h => by
    rw [runPhases] at h
    cases hl : ph.loop rs p s with
    | error e => rw [hl] at h; cases h
    | ok t0 =>
      obtain ⟨t1, t2, t3, t4⟩ := t0
      rw [hl] at h
      dsimp only at h
      cases hr : runPhases phs t1 t2 t3 with
      | error e => rw [hr] at h; cases h
      | ok u0 =>
        obtain ⟨u1, u2, u3⟩ := u0
        rw [hr] at h
        cases h
        obtain ⟨h1, h2, h3⟩ := loop_emits ph p0 (fun p hp => (hc p hp).1) rs p s _ _ _ _ hp hl
        have h4 : (u3.length : Int) + max 0 t2 = max 0 p' := by
          rcases h3 with h3 | h3
          · rw [h3, runPhases_nil_rows] at hr
            cases hr
            simp
          · exact runPhases_emits phs _ ((hc _ h2).2 h3) _ _ _ _ _ _ le_rfl hr
        rw [List.length_append]
        push_cast
        omega

theorem runs_emits (I : Indicator R ρ ω) (k : I.κ) (p0 : Int) (hc : Phases.Emits p0 (I.phases k)) (ht : TakesAll (I.phases k)) :
    ∀ (cs : List (List ρ)) (p : Int) (s : I.σ) (p' : Int) (s' : I.σ) (o : List ω), p0 ≤ p → I.runs k cs p s = .ok (p', s', o) →
      (o.length : Int) + max 0 p = max 0 p'
  | [], p, s, p', s', o, _, h => by cases h; simp
  | c :: cs, p, s, p', s', o, hp, h => by
    rw [Indicator.runs] at h
    cases hl : runPhases (I.phases k) c p s with
    | error e => rw [hl] at h; cases h
    | ok t0 =>
      obtain ⟨t1, t2, t3⟩ := t0
      rw [hl] at h
      dsimp only at h
      cases hr : I.runs k cs t1 t2 with
      | error e => rw [hr] at h; cases h
      | ok u0 =>
        obtain ⟨u1, u2, u3⟩ := u0
        rw [hr] at h
        cases h
        have h1 := runPhases_emits _ p0 hc c p s _ _ _ hp hl
        have h0 := runPhases_progress _ ht c p s _ _ _ hl
        have h2 := runs_emits I k p0 hc ht cs _ _ _ _ _ (by omega) hr
        rw [List.length_append]
        push_cast
        omega

theorem writesAll_of (I : Indicator R ρ ω) (o : Nat → R) (hb : I.CountsBars o)
    (hc : ∀ k p s, I.new o = .ok (.made k p s) → Phases.Emits p (I.phases k) ∧ TakesAll (I.phases k)) : I.WritesAll o := by
  intro k p s hn start hs h0 chunks prog out h
  obtain ⟨b1, b2⟩ := hb k p s hn
  obtain ⟨c1, c2⟩ := hc k p s hn
  rw [hs] at b1
  cases b1
  have h2 := b2 chunks prog out h
  unfold Indicator.session at h
  rw [hn] at h
  dsimp only at h
  cases hr : I.runs k chunks p s with
  | error e => rw [hr] at h; cases h
  | ok u0 =>
    obtain ⟨u1, u2, u3⟩ := u0
    rw [hr] at h
    cases h
    have h1 := runs_emits I k p c1 c2 chunks p s _ _ _ le_rfl hr
    omega

end General

/-- One loop of a `stream_run`: what its body writes. -/
macro "emits_body" h:ident : tactic => `(tactic| (
  repeat' (first
    | (rw [bind_eq_ok] at $h:ident; obtain ⟨_, _, $h:ident⟩ := $h:ident)
    | (split at $h:ident)
    | (cases $h:ident; done)
    | dsimp only at $h:ident)
  all_goals (try (cases $h:ident))
  all_goals (try (simp only [List.length_nil, List.length_cons, Nat.zero_add, Nat.cast_zero, Nat.cast_one]))
  all_goals (try (first | (rw [if_pos (by omega)]; done) | (rw [if_neg (by omega)]; done) | (split_ifs <;> simp <;> omega)))))

/-- Walks over the loops of a `stream_run`. -/
macro "emits_all" : tactic => `(tactic| (
  repeat' (first
    | trivial
    | (intro q hq
       refine ⟨fun hc r s s' o hb => ?_, fun hc => ?_⟩))
  all_goals (try (simp only [decide_eq_true_eq, decide_eq_false_iff_not, not_lt, not_le, Bool.true_eq_false, reduceCtorEq] at *))
  all_goals (try (emits_body hb))))

section Each
variable {R : Type} [Num R]

theorem ahma_writes (o : Nat → R) : (ahma (R := R)).WritesAll o := by
  refine writesAll_of _ o (ahma_counts o) fun k p s h => ⟨?_, ?_⟩
  · have hp := (ahma_counts o k p s h).1
    replace hp : ahmaStart o = .ok (-p) := hp
    show Phases.Emits p (ahmaPhases (R := R) k)
    unfold ahmaPhases
    emits_all
    all_goals (try (simp [ahmaStart] at hp; first | omega | (split_ifs <;> simp <;> omega)))
  · show TakesAll (ahmaPhases (R := R) k)
    simp [TakesAll, ahmaPhases]
theorem ehma_writes (o : Nat → R) : (ehma (R := R)).WritesAll o := by
  refine writesAll_of _ o (ehma_counts o) fun k p s h => ⟨?_, ?_⟩
  · have hp := (ehma_counts o k p s h).1
    replace hp : ehmaStart o = .ok (-p) := hp
    show Phases.Emits p (ehmaPhases (R := R) k)
    unfold ehmaPhases
    emits_all
    all_goals (try (simp [ehmaStart] at hp; first | omega | (split_ifs <;> simp <;> omega)))
  · show TakesAll (ehmaPhases (R := R) k)
    simp [TakesAll, ehmaPhases]
theorem idwma_writes (o : Nat → R) : (idwma (R := R)).WritesAll o := by
  refine writesAll_of _ o (idwma_counts o) fun k p s h => ⟨?_, ?_⟩
  · have hp := (idwma_counts o k p s h).1
    replace hp : idwmaStart o = .ok (-p) := hp
    show Phases.Emits p (idwmaPhases (R := R) k)
    unfold idwmaPhases
    emits_all
    all_goals (try (simp [idwmaStart] at hp; first | omega | (split_ifs <;> simp <;> omega)))
  · show TakesAll (idwmaPhases (R := R) k)
    simp [TakesAll, idwmaPhases]
theorem lma_writes (o : Nat → R) : (lma (R := R)).WritesAll o := by
  refine writesAll_of _ o (lma_counts o) fun k p s h => ⟨?_, ?_⟩
  · have hp := (lma_counts o k p s h).1
    replace hp : lmaStart o = .ok (-p) := hp
    show Phases.Emits p (lmaPhases (R := R) k)
    unfold lmaPhases
    emits_all
    all_goals (try (simp [lmaStart] at hp; first | omega | (split_ifs <;> simp <;> omega)))
  · show TakesAll (lmaPhases (R := R) k)
    simp [TakesAll, lmaPhases]
theorem shmma_writes (o : Nat → R) : (shmma (R := R)).WritesAll o := by
  refine writesAll_of _ o (shmma_counts o) fun k p s h => ⟨?_, ?_⟩
  · have hp := (shmma_counts o k p s h).1
    replace hp : shmmaStart o = .ok (-p) := hp
    show Phases.Emits p (shmmaPhases (R := R) k)
    unfold shmmaPhases
    emits_all
    all_goals (try (simp [shmmaStart] at hp; first | omega | (split_ifs <;> simp <;> omega)))
  · show TakesAll (shmmaPhases (R := R) k)
    simp [TakesAll, shmmaPhases]
theorem emsd_writes (o : Nat → R) : (emsd (R := R)).WritesAll o := by
  refine writesAll_of _ o (emsd_counts o) fun k p s h => ⟨?_, ?_⟩
  · have hp := (emsd_counts o k p s h).1
    replace hp : emsdStart o = .ok (-p) := hp
    show Phases.Emits p (emsdPhases (R := R) k)
    unfold emsdPhases
    emits_all
    all_goals (try (simp [emsdStart] at hp; first | omega | (split_ifs <;> simp <;> omega)))
  · show TakesAll (emsdPhases (R := R) k)
    simp [TakesAll, emsdPhases]
theorem edcf_writes (o : Nat → R) : (edcf (R := R)).WritesAll o := by
  refine writesAll_of _ o (edcf_counts o) fun k p s h => ⟨?_, ?_⟩
  · have hp := (edcf_counts o k p s h).1
    replace hp : edcfStart o = .ok (-p) := hp
    show Phases.Emits p (edcfPhases (R := R) k)
    unfold edcfPhases
    emits_all
    all_goals (try (simp [edcfStart] at hp; first | omega | (split_ifs <;> simp <;> omega)))
  · show TakesAll (edcfPhases (R := R) k)
    simp [TakesAll, edcfPhases]
theorem pc_writes (o : Nat → R) : (pc (R := R)).WritesAll o := by
  refine writesAll_of _ o (pc_counts o) fun k p s h => ⟨?_, ?_⟩
  · have hp := (pc_counts o k p s h).1
    replace hp : pcStart o = .ok (-p) := hp
    show Phases.Emits p (pcPhases (R := R) k)
    unfold pcPhases
    emits_all
    all_goals (try (simp [pcStart] at hp; first | omega | (split_ifs <;> simp <;> omega)))
  · show TakesAll (pcPhases (R := R) k)
    simp [TakesAll, pcPhases]
theorem ce_writes_partial (o : Nat → R) (hk : ∀ n, toInt (o 0) = .ok n → 2 ≤ n) : (ce (R := R)).WritesAll o := by
  refine writesAll_of _ o (ce_counts o) fun k p s h => ⟨?_, ?_⟩
  · have hp := (ce_counts o k p s h).1
    replace hp : ceStart o = .ok (-p) := hp
    have hk1 : 2 ≤ k.1 := by
      replace h : ceNew o = .ok (.made k p s) := h
      unfold ceNew at h
      repeat' (first
        | (rw [bind_eq_ok] at h; obtain ⟨_, _, h⟩ := h)
        | split at h
        | (cases h; done)
        | dsimp only at h)
      all_goals (try (cases h))
      all_goals (try (simp only [hfxBad, Bool.or_eq_true, decide_eq_true_eq, not_or, not_lt, Bool.not_eq_true] at *))
      all_goals (first | omega | simp_all)
    show Phases.Emits p (cePhases (R := R) k)
    unfold cePhases
    emits_all
    all_goals (try (simp [ceStart] at hp; first | omega | (split_ifs <;> simp <;> omega)))
  · show TakesAll (cePhases (R := R) k)
    simp [TakesAll, cePhases]
theorem ichi_writes (o : Nat → R) : (ichi (R := R)).WritesAll o := by
  refine writesAll_of _ o (ichi_counts o) fun k p s h => ⟨?_, ?_⟩
  · have hp := (ichi_counts o k p s h).1
    replace hp : ichiStart o = .ok (-p) := hp
    show Phases.Emits p (ichiPhases (R := R) k)
    unfold ichiPhases
    emits_all
    all_goals (try (simp [ichiStart] at hp; first | omega | (split_ifs <;> simp <;> omega)))
  · show TakesAll (ichiPhases (R := R) k)
    simp [TakesAll, ichiPhases]
theorem smi_writes (o : Nat → R) : (smi (R := R)).WritesAll o := by
  refine writesAll_of _ o (smi_counts o) fun k p s h => ⟨?_, ?_⟩
  · have hp := (smi_counts o k p s h).1
    replace hp : smiStart o = .ok (-p) := hp
    show Phases.Emits p (smiPhases (R := R) k)
    unfold smiPhases
    emits_all
    all_goals (try (simp [smiStart] at hp; first | omega | (split_ifs <;> simp <;> omega)))
  · show TakesAll (smiPhases (R := R) k)
    simp [TakesAll, smiPhases]
theorem hd_writes (o : Nat → R) : (hd (R := R)).WritesAll o := by
  refine writesAll_of _ o (hd_counts o) fun k p s h => ⟨?_, ?_⟩
  · have hp := (hd_counts o k p s h).1
    replace hp : hdStart o = .ok (-p) := hp
    show Phases.Emits p (hdLoops 0)
    unfold hdLoops
    emits_all
    all_goals (try (simp [hdStart] at hp; first | omega | (split_ifs <;> simp <;> omega)))
  · show TakesAll (hdLoops 0)
    simp [TakesAll, hdLoops]
theorem arsi_writes (o : Nat → R) : (arsi (R := R)).WritesAll o := by
  refine writesAll_of _ o (arsi_counts o) fun k p s h => ⟨?_, ?_⟩
  · have hp := (arsi_counts o k p s h).1
    replace hp : arsiStart o = .ok (-p) := hp
    show Phases.Emits p (arsiPhases (R := R) k)
    unfold arsiPhases
    emits_all
    all_goals (try (simp [arsiStart] at hp; first | omega | (split_ifs <;> simp <;> omega)))
  · show TakesAll (arsiPhases (R := R) k)
    simp [TakesAll, arsiPhases]
theorem mama_writes (o : Nat → R) : (mama (R := R)).WritesAll o := by
  refine writesAll_of _ o (mama_counts o) fun k p s h => ⟨?_, ?_⟩
  · have hp := (mama_counts o k p s h).1
    replace hp : mamaStart o = .ok (-p) := hp
    show Phases.Emits p (mamaPhases (R := R) k)
    unfold mamaPhases
    emits_all
    all_goals (try (simp [mamaStart] at hp; first | omega | (split_ifs <;> simp <;> omega)))
  · show TakesAll (mamaPhases (R := R) k)
    simp [TakesAll, mamaPhases]
theorem gf1_writes (o : Nat → R) : (gf1 (R := R)).WritesAll o := by
  refine writesAll_of _ o (gf1_counts o) fun k p s h => ⟨?_, ?_⟩
  · have hp := (gf1_counts o k p s h).1
    replace hp : gf1Start o = .ok (-p) := hp
    replace hp : p = 0 := by
      unfold gf1Start at hp
      rw [bind_eq_ok] at hp
      obtain ⟨_, _, hp⟩ := hp
      have hp := Except.ok.inj hp
      omega
    show Phases.Emits p (gf1Phases (R := R) k)
    unfold gf1Phases
    emits_all
    all_goals (try (first | omega | (split_ifs <;> simp <;> omega)))
  · show TakesAll (gf1Phases (R := R) k)
    simp [TakesAll, gf1Phases]
theorem gf2_writes (o : Nat → R) : (gf2 (R := R)).WritesAll o := by
  refine writesAll_of _ o (gf2_counts o) fun k p s h => ⟨?_, ?_⟩
  · have hp := (gf2_counts o k p s h).1
    replace hp : gf2Start o = .ok (-p) := hp
    replace hp : p = 0 := by
      unfold gf2Start at hp
      rw [bind_eq_ok] at hp
      obtain ⟨_, _, hp⟩ := hp
      have hp := Except.ok.inj hp
      omega
    show Phases.Emits p (gf2Phases (R := R) k)
    unfold gf2Phases
    emits_all
    all_goals (try (first | omega | (split_ifs <;> simp <;> omega)))
  · show TakesAll (gf2Phases (R := R) k)
    simp [TakesAll, gf2Phases]
theorem gf3_writes (o : Nat → R) : (gf3 (R := R)).WritesAll o := by
  refine writesAll_of _ o (gf3_counts o) fun k p s h => ⟨?_, ?_⟩
  · have hp := (gf3_counts o k p s h).1
    replace hp : gf3Start o = .ok (-p) := hp
    replace hp : p = 0 := by
      unfold gf3Start at hp
      rw [bind_eq_ok] at hp
      obtain ⟨_, _, hp⟩ := hp
      have hp := Except.ok.inj hp
      omega
    show Phases.Emits p (gf3Phases (R := R) k)
    unfold gf3Phases
    emits_all
    all_goals (try (first | omega | (split_ifs <;> simp <;> omega)))
  · show TakesAll (gf3Phases (R := R) k)
    simp [TakesAll, gf3Phases]
theorem gf4_writes (o : Nat → R) : (gf4 (R := R)).WritesAll o := by
  refine writesAll_of _ o (gf4_counts o) fun k p s h => ⟨?_, ?_⟩
  · have hp := (gf4_counts o k p s h).1
    replace hp : gf4Start o = .ok (-p) := hp
    replace hp : p = 0 := by
      unfold gf4Start at hp
      rw [bind_eq_ok] at hp
      obtain ⟨_, _, hp⟩ := hp
      have hp := Except.ok.inj hp
      omega
    show Phases.Emits p (gf4Phases (R := R) k)
    unfold gf4Phases
    emits_all
    all_goals (try (first | omega | (split_ifs <;> simp <;> omega)))
  · show TakesAll (gf4Phases (R := R) k)
    simp [TakesAll, gf4Phases]
theorem bf2_writes (o : Nat → R) : (bf2 (R := R)).WritesAll o := by
  refine writesAll_of _ o (bf2_counts o) fun k p s h => ⟨?_, ?_⟩
  · have hp := (bf2_counts o k p s h).1
    replace hp : bf2Start o = .ok (-p) := hp
    show Phases.Emits p (bf2Phases (R := R) k)
    unfold bf2Phases
    emits_all
    all_goals (try (simp [bf2Start] at hp; first | omega | (split_ifs <;> simp <;> omega)))
  · show TakesAll (bf2Phases (R := R) k)
    simp [TakesAll, bf2Phases]
theorem bf3_writes (o : Nat → R) : (bf3 (R := R)).WritesAll o := by
  refine writesAll_of _ o (bf3_counts o) fun k p s h => ⟨?_, ?_⟩
  · have hp := (bf3_counts o k p s h).1
    replace hp : bf3Start o = .ok (-p) := hp
    show Phases.Emits p (bf3Phases (R := R) k)
    unfold bf3Phases
    emits_all
    all_goals (try (simp [bf3Start] at hp; first | omega | (split_ifs <;> simp <;> omega)))
  · show TakesAll (bf3Phases (R := R) k)
    simp [TakesAll, bf3Phases]
theorem ssmooth_writes (o : Nat → R) : (ssmooth (R := R)).WritesAll o := by
  refine writesAll_of _ o (ssmooth_counts o) fun k p s h => ⟨?_, ?_⟩
  · have hp := (ssmooth_counts o k p s h).1
    replace hp : ssmoothStart o = .ok (-p) := hp
    show Phases.Emits p (ssmoothPhases)
    unfold ssmoothPhases
    emits_all
    all_goals (try (simp [ssmoothStart] at hp; first | omega | (split_ifs <;> simp <;> omega)))
  · show TakesAll (ssmoothPhases)
    simp [TakesAll, ssmoothPhases]
theorem roof_writes (o : Nat → R) : (roof (R := R)).WritesAll o := by
  refine writesAll_of _ o (roof_counts o) fun k p s h => ⟨?_, ?_⟩
  · have hp := (roof_counts o k p s h).1
    replace hp : roofStart o = .ok (-p) := hp
    show Phases.Emits p (roofPhases)
    unfold roofPhases
    emits_all
    all_goals (try (simp [roofStart] at hp; first | omega | (split_ifs <;> simp <;> omega)))
  · show TakesAll (roofPhases)
    simp [TakesAll, roofPhases]
theorem lf_writes (o : Nat → R) : (lf (R := R)).WritesAll o := by
  refine writesAll_of _ o (lf_counts o) fun k p s h => ⟨?_, ?_⟩
  · have hp := (lf_counts o k p s h).1
    replace hp : lfStart o = .ok (-p) := hp
    show Phases.Emits p (lfPhases (R := R) k)
    unfold lfPhases
    emits_all
    all_goals (try (simp [lfStart] at hp; first | omega | (split_ifs <;> simp <;> omega)))
  · show TakesAll (lfPhases (R := R) k)
    simp [TakesAll, lfPhases]
theorem rema_writes (o : Nat → R) : (rema (R := R)).WritesAll o := by
  refine writesAll_of _ o (rema_counts o) fun k p s h => ⟨?_, ?_⟩
  · have hp := (rema_counts o k p s h).1
    replace hp : remaStart o = .ok (-p) := hp
    show Phases.Emits p (remaPhases (R := R) k)
    unfold remaPhases
    emits_all
    all_goals (try (simp [remaStart] at hp; first | omega | (split_ifs <;> simp <;> omega)))
  · show TakesAll (remaPhases (R := R) k)
    simp [TakesAll, remaPhases]
theorem fi_writes (o : Nat → R) : (fi (R := R)).WritesAll o := by
  refine writesAll_of _ o (fi_counts o) fun k p s h => ⟨?_, ?_⟩
  · have hp := (fi_counts o k p s h).1
    replace hp : fiStart o = .ok (-p) := hp
    show Phases.Emits p (fiPhases (R := R) k)
    unfold fiPhases
    emits_all
    all_goals (try (simp [fiStart] at hp; first | omega | (split_ifs <;> simp <;> omega)))
  · show TakesAll (fiPhases (R := R) k)
    simp [TakesAll, fiPhases]
theorem mgdyn_writes (o : Nat → R) : (mgdyn (R := R)).WritesAll o := by
  refine writesAll_of _ o (mgdyn_counts o) fun k p s h => ⟨?_, ?_⟩
  · have hp := (mgdyn_counts o k p s h).1
    replace hp : mgdynStart o = .ok (-p) := hp
    show Phases.Emits p (mgdynPhases (R := R) k)
    unfold mgdynPhases
    emits_all
    all_goals (try (simp [mgdynStart] at hp; first | omega | (split_ifs <;> simp <;> omega)))
  · show TakesAll (mgdynPhases (R := R) k)
    simp [TakesAll, mgdynPhases]
theorem pvt_writes (o : Nat → R) : (pvt (R := R)).WritesAll o := by
  refine writesAll_of _ o (pvt_counts o) fun k p s h => ⟨?_, ?_⟩
  · have hp := (pvt_counts o k p s h).1
    replace hp : pvtStart o = .ok (-p) := hp
    show Phases.Emits p (pvtPhases (R := R) k)
    unfold pvtPhases
    emits_all
    all_goals (try (simp [pvtStart] at hp; first | omega | (split_ifs <;> simp <;> omega)))
  · show TakesAll (pvtPhases (R := R) k)
    simp [TakesAll, pvtPhases]
theorem kc_writes (o : Nat → R) : (kc (R := R)).WritesAll o := by
  refine writesAll_of _ o (kc_counts o) fun k p s h => ⟨?_, ?_⟩
  · have hp := (kc_counts o k p s h).1
    replace hp : kcStart o = .ok (-p) := hp
    show Phases.Emits p (kcPhases (R := R) k)
    unfold kcPhases
    emits_all
    all_goals (try (simp [kcStart] at hp; first | omega | (split_ifs <;> simp <;> omega)))
  · show TakesAll (kcPhases (R := R) k)
    simp [TakesAll, kcPhases]
theorem tsi_writes (o : Nat → R) : (tsi (R := R)).WritesAll o := by
  refine writesAll_of _ o (tsi_counts o) fun k p s h => ⟨?_, ?_⟩
  · have hp := (tsi_counts o k p s h).1
    replace hp : tsiStart o = .ok (-p) := hp
    show Phases.Emits p (tsiPhases (R := R) k)
    unfold tsiPhases
    emits_all
    all_goals (try (simp [tsiStart] at hp; first | omega | (split_ifs <;> simp <;> omega)))
  · show TakesAll (tsiPhases (R := R) k)
    simp [TakesAll, tsiPhases]
theorem rmi_writes (o : Nat → R) : (rmi (R := R)).WritesAll o := by
  refine writesAll_of _ o (rmi_counts o) fun k p s h => ⟨?_, ?_⟩
  · have hp := (rmi_counts o k p s h).1
    replace hp : rmiStart o = .ok (-p) := hp
    show Phases.Emits p (rmiPhases (R := R) k)
    unfold rmiPhases
    emits_all
    all_goals (try (simp [rmiStart] at hp; first | omega | (split_ifs <;> simp <;> omega)))
  · show TakesAll (rmiPhases (R := R) k)
    simp [TakesAll, rmiPhases]
theorem vwap_writes (o : Nat → R) : (vwap (R := R)).WritesAll o := by
  refine writesAll_of _ o (vwap_counts o) fun k p s h => ⟨?_, ?_⟩
  · have hp := (vwap_counts o k p s h).1
    replace hp : vwapStart o = .ok (-p) := hp
    show Phases.Emits p (vwapPhases (R := R) k)
    unfold vwapPhases
    emits_all
    all_goals (try (simp [vwapStart] at hp; first | omega | (split_ifs <;> simp <;> omega)))
  · show TakesAll (vwapPhases (R := R) k)
    simp [TakesAll, vwapPhases]
theorem evwma_writes (o : Nat → R) : (evwma (R := R)).WritesAll o := by
  refine writesAll_of _ o (evwma_counts o) fun k p s h => ⟨?_, ?_⟩
  · have hp := (evwma_counts o k p s h).1
    replace hp : evwmaStart o = .ok (-p) := hp
    show Phases.Emits p (evwmaPhases (R := R) k)
    unfold evwmaPhases
    emits_all
    all_goals (try (simp [evwmaStart] at hp; first | omega | (split_ifs <;> simp <;> omega)))
  · show TakesAll (evwmaPhases (R := R) k)
    simp [TakesAll, evwmaPhases]
theorem mesaWarm_len {k : MesaK R} {x0 x1 x2 : R} {i : Int} {s : MesaS R} {w} (h : mesaWarm k x0 x1 x2 i s = .ok w) : (w.2.length : Int) = 0 := by
  unfold mesaWarm at h
  rw [bind_eq_ok] at h
  obtain ⟨_, _, h⟩ := h
  cases h
  rfl
theorem mesaBar_len {k : MesaK R} {mx mn : Ring R → M Nat} {p : Int} {x0 x1 x2 : R} {i : Int} {s : MesaS R} {w} (h : mesaBar k mx mn p x0 x1 x2 i s = .ok w) :
    (w.2.length : Int) = 1 := by
  unfold mesaBar at h
  repeat' (first
    | (rw [bind_eq_ok] at h; obtain ⟨_, _, h⟩ := h)
    | (cases h; done)
    | dsimp only at h)
  all_goals (cases h)
  all_goals rfl
theorem mesastoch_writes (o : Nat → R) : (mesastoch (R := R)).WritesAll o := by
  refine writesAll_of _ o (mesastoch_counts o) fun k p s h => ⟨?_, ?_⟩
  · have hp := (mesastoch_counts o k p s h).1
    replace hp : mesastochStart o = .ok (-p) := hp
    have hk1 : 1 ≤ k.1 := by
      replace h : mesastochNew o = .ok (.made k p s) := h
      unfold mesastochNew at h
      repeat' (first
        | (rw [bind_eq_ok] at h; obtain ⟨_, _, h⟩ := h)
        | split at h
        | (cases h; done)
        | dsimp only at h)
      all_goals (try (cases h))
      all_goals (try (simp only [hfxBad, Bool.or_eq_true, decide_eq_true_eq, not_or, not_lt, Bool.not_eq_true] at *))
      all_goals (first | omega | simp_all)
    show Phases.Emits p (mesastochPhases (R := R) k)
    unfold mesastochPhases
    emits_all
    all_goals (try (rw [mesaWarm_len ‹_›]; first | (rw [if_pos (by omega)]; done) | (rw [if_neg (by omega)]; done)))
    all_goals (try (rw [mesaBar_len ‹_›]; first | (rw [if_pos (by omega)]; done) | (rw [if_neg (by omega)]; done)))
    all_goals (try (simp [mesastochStart] at hp; first | omega | (split_ifs <;> simp <;> omega)))
  · show TakesAll (mesastochPhases (R := R) k)
    simp [TakesAll, mesastochPhases]
theorem frama_writes (o : Nat → R) : (frama (R := R)).WritesAll o := by
  refine writesAll_of _ o (frama_counts o) fun k p s h => ⟨?_, ?_⟩
  · have hp := (frama_counts o k p s h).1
    replace hp : framaStart o = .ok (-p) := hp
    show Phases.Emits p (framaPhases (R := R) k)
    unfold framaPhases
    emits_all
    all_goals (try (simp [framaStart] at hp; first | omega | (split_ifs <;> simp <;> omega)))
  · show TakesAll (framaPhases (R := R) k)
    obtain ⟨a, b, c, d, e⟩ := k
    simp [TakesAll, framaPhases]
theorem hf_writes (o : Nat → R) : (hf (R := R)).WritesAll o := by
  refine writesAll_of _ o (hf_counts o) fun k p s h => ⟨?_, ?_⟩
  · have hp := (hf_counts o k p s h).1
    replace hp : hfStart o = .ok (-p) := hp
    show Phases.Emits p (hfPhases (R := R) k)
    unfold hfPhases
    emits_all
    all_goals (try (simp [hfStart] at hp; first | omega | (split_ifs <;> simp <;> omega)))
  · show TakesAll (hfPhases (R := R) k)
    simp [TakesAll, hfPhases]
theorem hfema_writes (o : Nat → R) : (hfema (R := R)).WritesAll o := by
  refine writesAll_of _ o (hfema_counts o) fun k p s h => ⟨?_, ?_⟩
  · have hp := (hfema_counts o k p s h).1
    replace hp : hfemaStart o = .ok (-p) := hp
    have hk1 : 1 ≤ k.k := by
      replace h : hfemaNew o = .ok (.made k p s) := h
      unfold hfemaNew at h
      repeat' (first
        | (rw [bind_eq_ok] at h; obtain ⟨_, _, h⟩ := h)
        | split at h
        | (cases h; done)
        | dsimp only at h)
      all_goals (try (cases h))
      all_goals (try (simp only [hfxBad, Bool.or_eq_true, decide_eq_true_eq, not_or, not_lt, Bool.not_eq_true] at *))
      all_goals (first | omega | simp_all)
    show Phases.Emits p (hfemaPhases (R := R) k)
    unfold hfemaPhases
    emits_all
    all_goals (try (simp [hfemaStart] at hp; first | omega | (split_ifs <;> simp <;> omega)))
  · show TakesAll (hfemaPhases (R := R) k)
    simp [TakesAll, hfemaPhases]
theorem hfsma_writes (o : Nat → R) : (hfsma (R := R)).WritesAll o := by
  refine writesAll_of _ o (hfsma_counts o) fun k p s h => ⟨?_, ?_⟩
  · have hp := (hfsma_counts o k p s h).1
    replace hp : hfsmaStart o = .ok (-p) := hp
    have hk1 : 1 ≤ k.2.1 := by
      replace h : hfsmaNew o = .ok (.made k p s) := h
      unfold hfsmaNew at h
      repeat' (first
        | (rw [bind_eq_ok] at h; obtain ⟨_, _, h⟩ := h)
        | split at h
        | (cases h; done)
        | dsimp only at h)
      all_goals (try (cases h))
      all_goals (try (simp only [hfxBad, Bool.or_eq_true, decide_eq_true_eq, not_or, not_lt, Bool.not_eq_true] at *))
      all_goals (first | omega | simp_all)
    show Phases.Emits p (hfsmaPhases (R := R) k)
    unfold hfsmaPhases
    emits_all
    all_goals (try (simp [hfsmaStart] at hp; first | omega | (split_ifs <;> simp <;> omega)))
  · show TakesAll (hfsmaPhases (R := R) k)
    simp [TakesAll, hfsmaPhases]
theorem atr_writes (o : Nat → R) : (atr (R := R)).WritesAll o := by
  refine writesAll_of _ o (atr_counts o) fun (k : Int) p s h => ⟨?_, ?_⟩
  · have hp := (atr_counts o k p s h).1
    replace hp : atrStart o = .ok (-p) := hp
    have hk1 : 1 ≤ k := by
      replace h : atrNew o = .ok (.made k p s) := h
      unfold atrNew at h
      repeat' (first
        | (rw [bind_eq_ok] at h; obtain ⟨_, _, h⟩ := h)
        | split at h
        | (cases h; done)
        | dsimp only at h)
      all_goals (try (cases h))
      all_goals (try (simp only [hfxBad, Bool.or_eq_true, decide_eq_true_eq, not_or, not_lt, Bool.not_eq_true] at *))
      all_goals (first | omega | simp_all)
    show Phases.Emits p (atrPhases (R := R) k)
    unfold atrPhases
    emits_all
    all_goals (try (simp [atrStart] at hp; first | omega | (split_ifs <;> simp <;> omega)))
  · show TakesAll (atrPhases (R := R) k)
    simp [TakesAll, atrPhases]
theorem hwma_writes (o : Nat → R) : (hwma (R := R)).WritesAll o := by
  refine writesAll_of _ o (hwma_counts o) fun k p s h => ⟨?_, ?_⟩
  · have hp := (hwma_counts o k p s h).1
    replace hp : hwmaStart o = .ok (-p) := hp
    show Phases.Emits p (hwmaPhases (R := R) k)
    unfold hwmaPhases
    emits_all
    all_goals (try (simp [hwmaStart] at hp; first | omega | (split_ifs <;> simp <;> omega)))
  · show TakesAll (hwmaPhases (R := R) k)
    simp [TakesAll, hwmaPhases]
theorem rmf_writes (o : Nat → R) : (rmf (R := R)).WritesAll o := by
  refine writesAll_of _ o (rmf_counts o) fun k p s h => ⟨?_, ?_⟩
  · have hp := (rmf_counts o k p s h).1
    replace hp : rmfStart o = .ok (-p) := hp
    show Phases.Emits p (rmfPhases (R := R) k)
    unfold rmfPhases rmfDrop
    emits_all
    all_goals (try (simp [rmfStart] at hp; first | omega | (split_ifs <;> simp <;> omega)))
  · show TakesAll (rmfPhases (R := R) k)
    simp [TakesAll, rmfPhases]
theorem rvi_writes (o : Nat → R) : (rvi (R := R)).WritesAll o := by
  refine writesAll_of _ o (rvi_counts o) fun k p s h => ⟨?_, ?_⟩
  · have hp := (rvi_counts o k p s h).1
    replace hp : rviStart o = .ok (-p) := hp
    show Phases.Emits p (rviPhases (R := R) k)
    unfold rviPhases
    emits_all
    all_goals (try (simp [rviStart] at hp; first | omega | (split_ifs <;> simp <;> omega)))
  · show TakesAll (rviPhases (R := R) k)
    simp [TakesAll, rviPhases]
theorem pbands_writes (o : Nat → R) : (pbands (R := R)).WritesAll o := by
  refine writesAll_of _ o (pbands_counts o) fun k p s h => ⟨?_, ?_⟩
  · have hp := (pbands_counts o k p s h).1
    replace hp : pbandsStart o = .ok (-p) := hp
    show Phases.Emits p (pbandsPhases (R := R) k)
    unfold pbandsPhases
    emits_all
    all_goals (try (simp [pbandsStart] at hp; first | omega | (split_ifs <;> simp <;> omega)))
  · show TakesAll (pbandsPhases (R := R) k)
    simp [TakesAll, pbandsPhases]
theorem posc_writes (o : Nat → R) : (posc (R := R)).WritesAll o := by
  refine writesAll_of _ o (posc_counts o) fun k p s h => ⟨?_, ?_⟩
  · have hp := (posc_counts o k p s h).1
    replace hp : pbandsStart o = .ok (-p) := hp
    show Phases.Emits p (poscPhases (R := R) k)
    unfold poscPhases
    emits_all
    all_goals (try (simp [pbandsStart] at hp; first | omega | (split_ifs <;> simp <;> omega)))
  · show TakesAll (poscPhases (R := R) k)
    simp [TakesAll, poscPhases]
theorem er_writes (o : Nat → R) : (er (R := R)).WritesAll o := by
  refine writesAll_of _ o (er_counts o) fun (k : Int) p s h => ⟨?_, ?_⟩
  · have hp := (er_counts o k p s h).1
    replace hp : erStart o = .ok (-p) := hp
    have hk1 : 1 ≤ k := by
      replace h : erNew o = .ok (.made k p s) := h
      unfold erNew at h
      repeat' (first
        | (rw [bind_eq_ok] at h; obtain ⟨_, _, h⟩ := h)
        | split at h
        | (cases h; done)
        | dsimp only at h)
      all_goals (try (cases h))
      all_goals (try (simp only [hfxBad, Bool.or_eq_true, decide_eq_true_eq, not_or, not_lt, Bool.not_eq_true] at *))
      all_goals (first | omega | simp_all)
    show Phases.Emits p (erPhases (R := R) k)
    unfold erPhases
    emits_all
    all_goals (try (simp [erStart] at hp; first | omega | (split_ifs <;> simp <;> omega)))
  · show TakesAll (erPhases (R := R) k)
    simp [TakesAll, erPhases]
theorem pwma_writes (o : Nat → R) : (pwma (R := R)).WritesAll o := by
  refine writesAll_of _ o (pwma_counts o) fun k p s h => ⟨?_, ?_⟩
  · have hp := (pwma_counts o k p s h).1
    replace hp : pwmaStart o = .ok (-p) := hp
    show Phases.Emits p (pwmaPhases (R := R) k)
    unfold pwmaPhases
    emits_all
    all_goals (try (simp [pwmaStart] at hp; first | omega | (split_ifs <;> simp <;> omega)))
  · show TakesAll (pwmaPhases (R := R) k)
    simp [TakesAll, pwmaPhases]
theorem swma_writes (o : Nat → R) : (swma (R := R)).WritesAll o := by
  refine writesAll_of _ o (swma_counts o) fun k p s h => ⟨?_, ?_⟩
  · have hp := (swma_counts o k p s h).1
    replace hp : swmaStart o = .ok (-p) := hp
    show Phases.Emits p (swmaPhases (R := R) k)
    unfold swmaPhases
    emits_all
    all_goals (try (simp [swmaStart] at hp; first | omega | (split_ifs <;> simp <;> omega)))
  · show TakesAll (swmaPhases (R := R) k)
    simp [TakesAll, swmaPhases]
theorem t3_writes (o : Nat → R) : (t3 (R := R)).WritesAll o := by
  refine writesAll_of _ o (t3_counts o) fun k p s h => ⟨?_, ?_⟩
  · have hp := (t3_counts o k p s h).1
    replace hp : t3Start o = .ok (-p) := hp
    show Phases.Emits p (t3Phases (R := R) k)
    unfold t3Phases
    emits_all
    all_goals (try (simp [t3Start] at hp; first | omega | (split_ifs <;> simp <;> omega)))
  · show TakesAll (t3Phases (R := R) k)
    simp [TakesAll, t3Phases]
theorem sma_writes (o : Nat → R) : (sma (R := R)).WritesAll o := by
  refine writesAll_of _ o (sma_counts o) fun k p s h => ⟨?_, ?_⟩
  · have hp := (sma_counts o k p s h).1
    replace hp : smaStart o = .ok (-p) := hp
    show Phases.Emits p (smaPhases (R := R) k)
    unfold smaPhases
    emits_all
    all_goals (try (simp [smaStart] at hp; first | omega | (split_ifs <;> simp <;> omega)))
  · show TakesAll (smaPhases (R := R) k)
    simp [TakesAll, smaPhases]
theorem mhlOut_len {k : Int} {s : MhlS R} {w} (h : mhlOut k s = .ok w) : (w.2.length : Int) = 1 := by
  unfold mhlOut at h
  repeat' (first
    | (rw [bind_eq_ok] at h; obtain ⟨_, _, h⟩ := h)
    | (cases h; done)
    | dsimp only at h)
  all_goals (cases h)
  all_goals rfl
theorem mhlma_writes_partial (o : Nat → R) (hk : ∀ n, toInt (o 1) = .ok n → 2 ≤ n) : (mhlma (R := R)).WritesAll o := by
  refine writesAll_of _ o (mhlma_counts o) fun k p s h => ⟨?_, ?_⟩
  · have hp := (mhlma_counts o k p s h).1
    replace hp : mhlmaStart o = .ok (-p) := hp
    have hk1 : 2 ≤ k.2 ∧ 1 ≤ k.1 := by
      replace h : mhlmaNew o = .ok (.made k p s) := h
      unfold mhlmaNew at h
      repeat' (first
        | (rw [bind_eq_ok] at h; obtain ⟨_, _, h⟩ := h)
        | split at h
        | (cases h; done)
        | dsimp only at h)
      all_goals (try (cases h))
      all_goals (try (simp only [hfxBad, Bool.or_eq_true, decide_eq_true_eq, not_or, not_lt, Bool.not_eq_true] at *))
      all_goals (first | omega | simp_all)
    show Phases.Emits p (mhlmaPhases (R := R) k)
    unfold mhlmaPhases
    emits_all
    all_goals (try (simp only [Bool.and_eq_true, decide_eq_true_eq] at *))
    all_goals (try (rw [mhlOut_len ‹_›]))
    all_goals (try (first | (rw [if_pos (by omega)]; done) | (rw [if_neg (by omega)]; done)))
    all_goals (try (simp [mhlmaStart] at hp; first | omega | (split_ifs <;> simp <;> omega)))
  · show TakesAll (mhlmaPhases (R := R) k)
    simp [TakesAll, mhlmaPhases]

end Each

/-! Not here: hurst, cmi, dwma, copp and pfe, whose loops compare progress with a real option or whose `stream_new` checks a real; and
vi, whose output depends on how many values it has stored. `Props/Account.lean` has them. -/

/-- With period 1 the stream of ce has written one value fewer than its progress says. -/
theorem ce_writes_violates : ¬ (ce (R := ℚ)).WritesAll (opts [1, 2]) := by
  intro h
  have hs : (ce (R := ℚ)).session (opts [1, 2]) [[⟨3, 1, 2⟩, ⟨4, 2, 3⟩]] = .ok (.okay, 2, [⟨0, 6⟩]) := by decide +kernel
  cases hn : (ce (R := ℚ)).new (opts [1, 2]) with
  | error e => unfold Indicator.session at hs; rw [hn] at hs; cases hs
  | ok r =>
    cases r with
    | fail => unfold Indicator.session at hs; rw [hn] at hs; cases hs
    | made k p s =>
      have := h k p s hn 0 (by decide +kernel) le_rfl _ _ _ hs
      simp at this

/-- With average period 1 the stream of mhlma has written one value fewer than its progress says. -/
theorem mhlma_writes_violates : ¬ (mhlma (R := ℚ)).WritesAll (opts [2, 1]) := by
  intro h
  have hs : (mhlma (R := ℚ)).session (opts [2, 1]) [[1, 3]] = .ok (.okay, 2, [⟨3, 2⟩]) := by decide +kernel
  cases hn : (mhlma (R := ℚ)).new (opts [2, 1]) with
  | error e => unfold Indicator.session at hs; rw [hn] at hs; cases hs
  | ok r =>
    cases r with
    | fail => unfold Indicator.session at hs; rw [hn] at hs; cases hs
    | made k p s =>
      have := h k p s hn 0 (by decide +kernel) le_rfl _ _ _ hs
      simp at this

/-! ### Concrete cases: an accepted option, a run, and the count -/

example : ∃ k s, (sma (R := ℚ)).new (opts [3]) = .ok (.made k (-2) s) := ⟨_, _, rfl⟩
example : (sma (R := ℚ)).session (opts [3]) [[1, 2], [3, 6]] = .ok (.okay, 2, [2, 11 / 3]) := by decide +kernel

end Verif
