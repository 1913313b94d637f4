/-
C04: progress accounting of the streams.
-/
import Verif.Spec.Progress
import Verif.Spec.Contract
import Verif.Core.StreamLemmas
import Verif.Core.RatInst
import Verif.Model.Average
import Verif.Model.Chan
import Verif.Model.Cycle
import Verif.Model.Filters
import Verif.Model.Flow
import Verif.Model.Fractal
import Verif.Model.Hampel
import Verif.Model.Range
import Verif.Model.Rank
import Verif.Model.Regress
import Verif.Model.Smooth
import Verif.Model.Sum
import Verif.Model.Trail

namespace Verif
set_option linter.unusedSectionVars false
set_option linter.unusedSimpArgs false

section General
variable {R ρ σ ω : Type}

theorem loop_progress (ph : Phase ρ σ ω) : ∀ (rs : List ρ) (p : Int) (s : σ) (rs' : List ρ) (p' : Int) (s' : σ) (o : List ω),
    ph.loop rs p s = .ok (rs', p', s', o) → p' + rs'.length = p + rs.length
  | [], p, s, rs', p', s', o, h => by simp only [Phase.loop, Except.ok.injEq, Prod.mk.injEq] at h; obtain ⟨rfl, rfl, _⟩ := h; rfl
  | r :: rs, p, s, rs', p', s', o, h => by
    simp only [Phase.loop] at h
    split at h
    · cases hb : ph.body p r s with
      | error e => rw [hb] at h; cases h
      | ok q =>
        rw [hb] at h
        dsimp only at h
        cases hl : ph.loop rs (p + 1) q.1 with
        | error e => rw [hl] at h; cases h
        | ok t =>
          rw [hl] at h
          cases h
          have := loop_progress ph rs (p + 1) q.1 t.1 t.2.1 t.2.2.1 t.2.2.2 hl
          simp only [List.length_cons]
          push_cast
          rw [this]
          omega
    · cases h; rfl

theorem loop_all (ph : Phase ρ σ ω) (hc : ∀ p, ph.cond p = true) : ∀ (rs : List ρ) (p : Int) (s : σ) (rs' : List ρ) (p' : Int) (s' : σ)
    (o : List ω), ph.loop rs p s = .ok (rs', p', s', o) → rs' = []
  | [], p, s, rs', p', s', o, h => by simp only [Phase.loop, Except.ok.injEq, Prod.mk.injEq] at h; exact h.1.symm
  | r :: rs, p, s, rs', p', s', o, h => by
    simp only [Phase.loop, hc, if_true] at h
    cases hb : ph.body p r s with
    | error e => rw [hb] at h; cases h
    | ok q =>
      rw [hb] at h
      dsimp only at h
      cases hl : ph.loop rs (p + 1) q.1 with
      | error e => rw [hl] at h; cases h
      | ok t =>
        rw [hl] at h
        cases h
        exact loop_all ph hc rs (p + 1) q.1 t.1 t.2.1 t.2.2.1 t.2.2.2 hl

/-- The last loop takes every bar left. -/
def TakesAll : List (Phase ρ σ ω) → Prop
  | [] => False
  | [ph] => ∀ p, ph.cond p = true
  | _ :: phs => TakesAll phs

theorem runPhases_progress : ∀ (phs : List (Phase ρ σ ω)) (_ : TakesAll phs) (rs : List ρ) (p : Int) (s : σ) (p' : Int) (s' : σ) (o : List ω),
    runPhases phs rs p s = .ok (p', s', o) → p' = p + rs.length
  | [], h, _, _, _, _, _, _, _ => h.elim
  | [ph], hc, rs, p, s, p', s', o, h => by
    simp only [runPhases] at h
    cases hl : ph.loop rs p s with
    | error e => rw [hl] at h; cases h
    | ok t =>
      rw [hl] at h
      cases h
      have h1 := loop_progress ph rs p s t.1 t.2.1 t.2.2.1 t.2.2.2 hl
      have h2 := loop_all ph hc rs p s t.1 t.2.1 t.2.2.1 t.2.2.2 hl
      rw [h2] at h1
      simpa using h1
  | ph :: ph2 :: phs, hc, rs, p, s, p', s', o, h => by
    rw [runPhases] at h
    cases hl : ph.loop rs p s with
    | error e => rw [hl] at h; cases h
    | ok t =>
      rw [hl] at h
      dsimp only at h
      cases hr : runPhases (ph2 :: phs) t.1 t.2.1 t.2.2.1 with
      | error e => rw [hr] at h; cases h
      | ok u =>
        rw [hr] at h
        cases h
        have h1 := loop_progress ph rs p s t.1 t.2.1 t.2.2.1 t.2.2.2 hl
        have h2 := runPhases_progress (ph2 :: phs) hc t.1 t.2.1 t.2.2.1 u.1 u.2.1 u.2.2 hr
        omega

theorem runs_progress (I : Indicator R ρ ω) (k : I.κ) (hc : TakesAll (I.phases k)) : ∀ (cs : List (List ρ)) (p : Int) (s : I.σ) (p' : Int)
    (s' : I.σ) (o : List ω), I.runs k cs p s = .ok (p', s', o) → p' = p + cs.flatten.length
  | [], p, s, p', s', o, h => by cases h; simp
  | c :: cs, p, s, p', s', o, h => by
    rw [Indicator.runs] at h
    cases hl : runPhases (I.phases k) c p s with
    | error e => rw [hl] at h; cases h
    | ok t =>
      rw [hl] at h
      dsimp only at h
      cases hr : I.runs k cs t.1 t.2.1 with
      | error e => rw [hr] at h; cases h
      | ok u =>
        rw [hr] at h
        cases h
        have h1 := runPhases_progress _ hc c p s t.1 t.2.1 t.2.2 hl
        have h2 := runs_progress I k hc cs t.1 t.2.1 u.1 u.2.1 u.2.2 hr
        simp only [List.flatten_cons, List.length_append]
        push_cast
        omega

theorem countsBars_of (I : Indicator R ρ ω) (o : Nat → R) (hs : ∀ k p s, I.new o = .ok (.made k p s) → I.start o = .ok (-p))
    (hc : ∀ k, TakesAll (I.phases k)) : I.CountsBars o := by
  intro k p s hn
  refine ⟨hs k p s hn, fun chunks prog out h => ?_⟩
  unfold Indicator.session at h
  rw [hn] at h
  dsimp only at h
  cases hr : I.runs k chunks p s with
  | error e => rw [hr] at h; cases h
  | ok u =>
    rw [hr] at h
    cases h
    exact runs_progress I k (hc k) chunks p s u.1 u.2.1 u.2.2 hr

/-- A stream that agrees with a batch call that keeps the contract accounts for its bars. -/
theorem accounts_of {I : Indicator R ρ ω} {o : Nat → R} {start : Nat} (hb : Contract I.start I.batch o start)
    (hs : I.StreamEqBatch o start) : I.Accounts o start := by
  refine ⟨hb.start_eq, fun chunks => ?_⟩
  obtain ⟨out, h1, h2⟩ := hs chunks
  obtain ⟨out', h3, h4⟩ := hb.safe chunks.flatten
  rw [h1] at h3
  cases h3
  exact ⟨out, h2, h4⟩

theorem bind_eq_ok {α β : Type} {m : M α} {f : α → M β} {b : β} : (m >>= f) = .ok b ↔ ∃ a, m = .ok a ∧ f a = .ok b := by
  cases m with
  | error e =>
    refine ⟨fun h => (by cases h), fun h => ?_⟩
    obtain ⟨_, h, _⟩ := h
    cases h
  | ok a =>
    refine ⟨fun h => ⟨a, rfl, h⟩, fun h => ?_⟩
    obtain ⟨_, h, h'⟩ := h
    cases h
    exact h'

end General

/-- Follows a `stream_new` that succeeded to the progress it set. -/
macro "progress_new" h:ident : tactic => `(tactic| (
  repeat' (first
    | (rw [bind_eq_ok] at $h:ident; obtain ⟨_, _, $h:ident⟩ := $h:ident)
    | split at $h:ident
    | (cases $h:ident; done)
    | dsimp only at $h:ident)
  all_goals (try (cases $h:ident))
  all_goals (first | assumption | (simp only [neg_neg, neg_zero]; assumption) | rfl | simp)))

section Each
variable {R : Type} [Num R]

theorem ahma_counts (o : Nat → R) : (ahma (R := R)).CountsBars o := by
  refine countsBars_of _ o (fun k p s h => ?_) (fun k => ?_)
  · replace h : ahmaNew o = .ok (.made k p s) := h
    show ahmaStart o = .ok (-p)
    unfold ahmaNew at h
    progress_new h
  · show TakesAll (ahmaPhases (R := R) k)
    simp [TakesAll, ahmaPhases]
theorem ehma_counts (o : Nat → R) : (ehma (R := R)).CountsBars o := by
  refine countsBars_of _ o (fun k p s h => ?_) (fun k => ?_)
  · replace h : ehmaNew o = .ok (.made k p s) := h
    show ehmaStart o = .ok (-p)
    unfold ehmaNew at h
    progress_new h
  · show TakesAll (ehmaPhases (R := R) k)
    simp [TakesAll, ehmaPhases]
theorem idwma_counts (o : Nat → R) : (idwma (R := R)).CountsBars o := by
  refine countsBars_of _ o (fun k p s h => ?_) (fun k => ?_)
  · replace h : idwmaNew o = .ok (.made k p s) := h
    show idwmaStart o = .ok (-p)
    unfold idwmaNew at h
    progress_new h
  · show TakesAll (idwmaPhases (R := R) k)
    simp [TakesAll, idwmaPhases]
theorem lma_counts (o : Nat → R) : (lma (R := R)).CountsBars o := by
  refine countsBars_of _ o (fun k p s h => ?_) (fun k => ?_)
  · replace h : lmaNew o = .ok (.made k p s) := h
    show lmaStart o = .ok (-p)
    unfold lmaNew at h
    progress_new h
  · show TakesAll (lmaPhases (R := R) k)
    simp [TakesAll, lmaPhases]
theorem shmma_counts (o : Nat → R) : (shmma (R := R)).CountsBars o := by
  refine countsBars_of _ o (fun k p s h => ?_) (fun k => ?_)
  · replace h : shmmaNew o = .ok (.made k p s) := h
    show shmmaStart o = .ok (-p)
    unfold shmmaNew at h
    progress_new h
  · show TakesAll (shmmaPhases (R := R) k)
    simp [TakesAll, shmmaPhases]
theorem emsd_counts (o : Nat → R) : (emsd (R := R)).CountsBars o := by
  refine countsBars_of _ o (fun k p s h => ?_) (fun k => ?_)
  · replace h : emsdNew o = .ok (.made k p s) := h
    show emsdStart o = .ok (-p)
    unfold emsdNew at h
    progress_new h
  · show TakesAll (emsdPhases (R := R) k)
    simp [TakesAll, emsdPhases]
theorem edcf_counts (o : Nat → R) : (edcf (R := R)).CountsBars o := by
  refine countsBars_of _ o (fun k p s h => ?_) (fun k => ?_)
  · replace h : edcfNew o = .ok (.made k p s) := h
    show edcfStart o = .ok (-p)
    unfold edcfNew at h
    progress_new h
  · show TakesAll (edcfPhases (R := R) k)
    simp [TakesAll, edcfPhases]
theorem pc_counts (o : Nat → R) : (pc (R := R)).CountsBars o := by
  refine countsBars_of _ o (fun k p s h => ?_) (fun k => ?_)
  · replace h : pcNew o = .ok (.made k p s) := h
    show pcStart o = .ok (-p)
    unfold pcNew at h
    progress_new h
  · show TakesAll (pcPhases (R := R) k)
    simp [TakesAll, pcPhases]
theorem ce_counts (o : Nat → R) : (ce (R := R)).CountsBars o := by
  refine countsBars_of _ o (fun k p s h => ?_) (fun k => ?_)
  · replace h : ceNew o = .ok (.made k p s) := h
    show ceStart o = .ok (-p)
    unfold ceNew at h
    progress_new h
  · show TakesAll (cePhases (R := R) k)
    simp [TakesAll, cePhases]
theorem ichi_counts (o : Nat → R) : (ichi (R := R)).CountsBars o := by
  refine countsBars_of _ o (fun k p s h => ?_) (fun k => ?_)
  · replace h : ichiNew o = .ok (.made k p s) := h
    show ichiStart o = .ok (-p)
    unfold ichiNew at h
    progress_new h
  · show TakesAll (ichiPhases (R := R) k)
    simp [TakesAll, ichiPhases]
theorem smi_counts (o : Nat → R) : (smi (R := R)).CountsBars o := by
  refine countsBars_of _ o (fun k p s h => ?_) (fun k => ?_)
  · replace h : smiNew o = .ok (.made k p s) := h
    show smiStart o = .ok (-p)
    unfold smiNew at h
    progress_new h
  · show TakesAll (smiPhases (R := R) k)
    simp [TakesAll, smiPhases]
theorem hd_counts (o : Nat → R) : (hd (R := R)).CountsBars o := by
  refine countsBars_of _ o (fun k p s h => ?_) (fun k => ?_)
  · replace h : hdNew o = .ok (.made k p s) := h
    show hdStart o = .ok (-p)
    unfold hdNew at h
    progress_new h
  · show TakesAll (hdLoops 0)
    simp [TakesAll, hdLoops]
theorem arsi_counts (o : Nat → R) : (arsi (R := R)).CountsBars o := by
  refine countsBars_of _ o (fun k p s h => ?_) (fun k => ?_)
  · replace h : arsiNew o = .ok (.made k p s) := h
    show arsiStart o = .ok (-p)
    unfold arsiNew at h
    progress_new h
  · show TakesAll (arsiPhases (R := R) k)
    simp [TakesAll, arsiPhases]
theorem mama_counts (o : Nat → R) : (mama (R := R)).CountsBars o := by
  refine countsBars_of _ o (fun k p s h => ?_) (fun k => ?_)
  · replace h : mamaNew o = .ok (.made k p s) := h
    show mamaStart o = .ok (-p)
    unfold mamaNew at h
    progress_new h
  · show TakesAll (mamaPhases (R := R) k)
    simp [TakesAll, mamaPhases]
theorem gf1_counts (o : Nat → R) : (gf1 (R := R)).CountsBars o := by
  refine countsBars_of _ o (fun k p s h => ?_) (fun k => ?_)
  · replace h : gf1New o = .ok (.made k p s) := h
    show gf1Start o = .ok (-p)
    unfold gf1New at h
    progress_new h
  · show TakesAll (gf1Phases (R := R) k)
    simp [TakesAll, gf1Phases]
theorem gf2_counts (o : Nat → R) : (gf2 (R := R)).CountsBars o := by
  refine countsBars_of _ o (fun k p s h => ?_) (fun k => ?_)
  · replace h : gf2New o = .ok (.made k p s) := h
    show gf2Start o = .ok (-p)
    unfold gf2New at h
    progress_new h
  · show TakesAll (gf2Phases (R := R) k)
    simp [TakesAll, gf2Phases]
theorem gf3_counts (o : Nat → R) : (gf3 (R := R)).CountsBars o := by
  refine countsBars_of _ o (fun k p s h => ?_) (fun k => ?_)
  · replace h : gf3New o = .ok (.made k p s) := h
    show gf3Start o = .ok (-p)
    unfold gf3New at h
    progress_new h
  · show TakesAll (gf3Phases (R := R) k)
    simp [TakesAll, gf3Phases]
theorem gf4_counts (o : Nat → R) : (gf4 (R := R)).CountsBars o := by
  refine countsBars_of _ o (fun k p s h => ?_) (fun k => ?_)
  · replace h : gf4New o = .ok (.made k p s) := h
    show gf4Start o = .ok (-p)
    unfold gf4New at h
    progress_new h
  · show TakesAll (gf4Phases (R := R) k)
    simp [TakesAll, gf4Phases]
theorem bf2_counts (o : Nat → R) : (bf2 (R := R)).CountsBars o := by
  refine countsBars_of _ o (fun k p s h => ?_) (fun k => ?_)
  · replace h : bf2New o = .ok (.made k p s) := h
    show bf2Start o = .ok (-p)
    unfold bf2New at h
    progress_new h
  · show TakesAll (bf2Phases (R := R) k)
    simp [TakesAll, bf2Phases]
theorem bf3_counts (o : Nat → R) : (bf3 (R := R)).CountsBars o := by
  refine countsBars_of _ o (fun k p s h => ?_) (fun k => ?_)
  · replace h : bf3New o = .ok (.made k p s) := h
    show bf3Start o = .ok (-p)
    unfold bf3New at h
    progress_new h
  · show TakesAll (bf3Phases (R := R) k)
    simp [TakesAll, bf3Phases]
theorem ssmooth_counts (o : Nat → R) : (ssmooth (R := R)).CountsBars o := by
  refine countsBars_of _ o (fun k p s h => ?_) (fun k => ?_)
  · replace h : ssmoothNew o = .ok (.made k p s) := h
    show ssmoothStart o = .ok (-p)
    unfold ssmoothNew at h
    progress_new h
  · show TakesAll (ssmoothPhases)
    simp [TakesAll, ssmoothPhases]
theorem roof_counts (o : Nat → R) : (roof (R := R)).CountsBars o := by
  refine countsBars_of _ o (fun k p s h => ?_) (fun k => ?_)
  · replace h : roofNew o = .ok (.made k p s) := h
    show roofStart o = .ok (-p)
    unfold roofNew at h
    progress_new h
  · show TakesAll (roofPhases)
    simp [TakesAll, roofPhases]
theorem lf_counts (o : Nat → R) : (lf (R := R)).CountsBars o := by
  refine countsBars_of _ o (fun k p s h => ?_) (fun k => ?_)
  · replace h : lfNew o = .ok (.made k p s) := h
    show lfStart o = .ok (-p)
    unfold lfNew at h
    progress_new h
  · show TakesAll (lfPhases (R := R) k)
    simp [TakesAll, lfPhases]
theorem rema_counts (o : Nat → R) : (rema (R := R)).CountsBars o := by
  refine countsBars_of _ o (fun k p s h => ?_) (fun k => ?_)
  · replace h : remaNew o = .ok (.made k p s) := h
    show remaStart o = .ok (-p)
    unfold remaNew at h
    progress_new h
  · show TakesAll (remaPhases (R := R) k)
    simp [TakesAll, remaPhases]
theorem fi_counts (o : Nat → R) : (fi (R := R)).CountsBars o := by
  refine countsBars_of _ o (fun k p s h => ?_) (fun k => ?_)
  · replace h : fiNew o = .ok (.made k p s) := h
    show fiStart o = .ok (-p)
    unfold fiNew at h
    progress_new h
  · show TakesAll (fiPhases (R := R) k)
    simp [TakesAll, fiPhases]
theorem mgdyn_counts (o : Nat → R) : (mgdyn (R := R)).CountsBars o := by
  refine countsBars_of _ o (fun k p s h => ?_) (fun k => ?_)
  · replace h : mgdynNew o = .ok (.made k p s) := h
    show mgdynStart o = .ok (-p)
    unfold mgdynNew at h
    progress_new h
  · show TakesAll (mgdynPhases (R := R) k)
    simp [TakesAll, mgdynPhases]
theorem pvt_counts (o : Nat → R) : (pvt (R := R)).CountsBars o := by
  refine countsBars_of _ o (fun k p s h => ?_) (fun k => ?_)
  · replace h : pvtNew o = .ok (.made k p s) := h
    show pvtStart o = .ok (-p)
    unfold pvtNew at h
    progress_new h
  · show TakesAll (pvtPhases (R := R) k)
    simp [TakesAll, pvtPhases]
theorem kc_counts (o : Nat → R) : (kc (R := R)).CountsBars o := by
  refine countsBars_of _ o (fun k p s h => ?_) (fun k => ?_)
  · replace h : kcNew o = .ok (.made k p s) := h
    show kcStart o = .ok (-p)
    unfold kcNew at h
    progress_new h
  · show TakesAll (kcPhases (R := R) k)
    simp [TakesAll, kcPhases]
theorem tsi_counts (o : Nat → R) : (tsi (R := R)).CountsBars o := by
  refine countsBars_of _ o (fun k p s h => ?_) (fun k => ?_)
  · replace h : tsiNew o = .ok (.made k p s) := h
    show tsiStart o = .ok (-p)
    unfold tsiNew at h
    progress_new h
  · show TakesAll (tsiPhases (R := R) k)
    simp [TakesAll, tsiPhases]
theorem rmi_counts (o : Nat → R) : (rmi (R := R)).CountsBars o := by
  refine countsBars_of _ o (fun k p s h => ?_) (fun k => ?_)
  · replace h : rmiNew o = .ok (.made k p s) := h
    show rmiStart o = .ok (-p)
    unfold rmiNew at h
    progress_new h
  · show TakesAll (rmiPhases (R := R) k)
    simp [TakesAll, rmiPhases]
theorem vwap_counts (o : Nat → R) : (vwap (R := R)).CountsBars o := by
  refine countsBars_of _ o (fun k p s h => ?_) (fun k => ?_)
  · replace h : vwapNew o = .ok (.made k p s) := h
    show vwapStart o = .ok (-p)
    unfold vwapNew at h
    progress_new h
  · show TakesAll (vwapPhases (R := R) k)
    simp [TakesAll, vwapPhases]
theorem evwma_counts (o : Nat → R) : (evwma (R := R)).CountsBars o := by
  refine countsBars_of _ o (fun k p s h => ?_) (fun k => ?_)
  · replace h : evwmaNew o = .ok (.made k p s) := h
    show evwmaStart o = .ok (-p)
    unfold evwmaNew at h
    progress_new h
  · show TakesAll (evwmaPhases (R := R) k)
    simp [TakesAll, evwmaPhases]
theorem vi_counts (o : Nat → R) : (vi (R := R)).CountsBars o := by
  refine countsBars_of _ o (fun k p s h => ?_) (fun k => ?_)
  · replace h : viNew o = .ok (.made k p s) := h
    show viStart o = .ok (-p)
    unfold viNew at h
    progress_new h
  · show TakesAll (viPhases (R := R) k)
    simp [TakesAll, viPhases]
theorem hurst_counts (o : Nat → R) : (hurst (R := R)).CountsBars o := by
  refine countsBars_of _ o (fun k p s h => ?_) (fun k => ?_)
  · replace h : hurstNew o = .ok (.made k p s) := h
    show hurstStart o = .ok (-p)
    unfold hurstNew at h
    progress_new h
  · show TakesAll (hurstPhases (R := R) k)
    simp [TakesAll, hurstPhases]
theorem mesastoch_counts (o : Nat → R) : (mesastoch (R := R)).CountsBars o := by
  refine countsBars_of _ o (fun k p s h => ?_) (fun k => ?_)
  · replace h : mesastochNew o = .ok (.made k p s) := h
    show mesastochStart o = .ok (-p)
    unfold mesastochNew at h
    progress_new h
  · show TakesAll (mesastochPhases (R := R) k)
    simp [TakesAll, mesastochPhases]
theorem frama_counts (o : Nat → R) : (frama (R := R)).CountsBars o := by
  refine countsBars_of _ o (fun k p s h => ?_) (fun k => ?_)
  · replace h : framaNew o = .ok (.made k p s) := h
    show framaStart o = .ok (-p)
    unfold framaNew at h
    progress_new h
  · show TakesAll (framaPhases (R := R) k)
    obtain ⟨a, b, c, d, e⟩ := k
    simp [TakesAll, framaPhases]
theorem hf_counts (o : Nat → R) : (hf (R := R)).CountsBars o := by
  refine countsBars_of _ o (fun k p s h => ?_) (fun k => ?_)
  · replace h : hfNew o = .ok (.made k p s) := h
    show hfStart o = .ok (-p)
    unfold hfNew at h
    progress_new h
  · show TakesAll (hfPhases (R := R) k)
    simp [TakesAll, hfPhases]
theorem hfema_counts (o : Nat → R) : (hfema (R := R)).CountsBars o := by
  refine countsBars_of _ o (fun k p s h => ?_) (fun k => ?_)
  · replace h : hfemaNew o = .ok (.made k p s) := h
    show hfemaStart o = .ok (-p)
    unfold hfemaNew at h
    progress_new h
  · show TakesAll (hfemaPhases (R := R) k)
    simp [TakesAll, hfemaPhases]
theorem hfsma_counts (o : Nat → R) : (hfsma (R := R)).CountsBars o := by
  refine countsBars_of _ o (fun k p s h => ?_) (fun k => ?_)
  · replace h : hfsmaNew o = .ok (.made k p s) := h
    show hfsmaStart o = .ok (-p)
    unfold hfsmaNew at h
    progress_new h
  · show TakesAll (hfsmaPhases (R := R) k)
    simp [TakesAll, hfsmaPhases]
theorem atr_counts (o : Nat → R) : (atr (R := R)).CountsBars o := by
  refine countsBars_of _ o (fun k p s h => ?_) (fun k => ?_)
  · replace h : atrNew o = .ok (.made k p s) := h
    show atrStart o = .ok (-p)
    unfold atrNew at h
    progress_new h
  · show TakesAll (atrPhases (R := R) k)
    simp [TakesAll, atrPhases]
theorem hwma_counts (o : Nat → R) : (hwma (R := R)).CountsBars o := by
  refine countsBars_of _ o (fun k p s h => ?_) (fun k => ?_)
  · replace h : hwmaNew o = .ok (.made k p s) := h
    show hwmaStart o = .ok (-p)
    unfold hwmaNew at h
    progress_new h
  · show TakesAll (hwmaPhases (R := R) k)
    simp [TakesAll, hwmaPhases]
theorem rmf_counts (o : Nat → R) : (rmf (R := R)).CountsBars o := by
  refine countsBars_of _ o (fun k p s h => ?_) (fun k => ?_)
  · replace h : rmfNew o = .ok (.made k p s) := h
    show rmfStart o = .ok (-p)
    unfold rmfNew at h
    progress_new h
  · show TakesAll (rmfPhases (R := R) k)
    simp [TakesAll, rmfPhases]
theorem rvi_counts (o : Nat → R) : (rvi (R := R)).CountsBars o := by
  refine countsBars_of _ o (fun k p s h => ?_) (fun k => ?_)
  · replace h : rviNew o = .ok (.made k p s) := h
    show rviStart o = .ok (-p)
    unfold rviNew at h
    progress_new h
  · show TakesAll (rviPhases (R := R) k)
    simp [TakesAll, rviPhases]
theorem pbands_counts (o : Nat → R) : (pbands (R := R)).CountsBars o := by
  refine countsBars_of _ o (fun k p s h => ?_) (fun k => ?_)
  · replace h : pbandsNew o = .ok (.made k p s) := h
    show pbandsStart o = .ok (-p)
    unfold pbandsNew at h
    progress_new h
  · show TakesAll (pbandsPhases (R := R) k)
    simp [TakesAll, pbandsPhases]
theorem posc_counts (o : Nat → R) : (posc (R := R)).CountsBars o := by
  refine countsBars_of _ o (fun k p s h => ?_) (fun k => ?_)
  · replace h : poscNew o = .ok (.made k p s) := h
    show pbandsStart o = .ok (-p)
    unfold poscNew at h
    progress_new h
  · show TakesAll (poscPhases (R := R) k)
    simp [TakesAll, poscPhases]
theorem er_counts (o : Nat → R) : (er (R := R)).CountsBars o := by
  refine countsBars_of _ o (fun k p s h => ?_) (fun k => ?_)
  · replace h : erNew o = .ok (.made k p s) := h
    show erStart o = .ok (-p)
    unfold erNew at h
    progress_new h
  · show TakesAll (erPhases (R := R) k)
    simp [TakesAll, erPhases]
theorem dwma_counts (o : Nat → R) : (dwma (R := R)).CountsBars o := by
  refine countsBars_of _ o (fun k p s h => ?_) (fun k => ?_)
  · replace h : dwmaNew o = .ok (.made k p s) := h
    show dwmaStart o = .ok (-p)
    unfold dwmaNew at h
    progress_new h
  · show TakesAll (dwmaPhases (R := R) k)
    simp [TakesAll, dwmaPhases]
theorem pwma_counts (o : Nat → R) : (pwma (R := R)).CountsBars o := by
  refine countsBars_of _ o (fun k p s h => ?_) (fun k => ?_)
  · replace h : pwmaNew o = .ok (.made k p s) := h
    show pwmaStart o = .ok (-p)
    unfold pwmaNew at h
    progress_new h
  · show TakesAll (pwmaPhases (R := R) k)
    simp [TakesAll, pwmaPhases]
theorem swma_counts (o : Nat → R) : (swma (R := R)).CountsBars o := by
  refine countsBars_of _ o (fun k p s h => ?_) (fun k => ?_)
  · replace h : swmaNew o = .ok (.made k p s) := h
    show swmaStart o = .ok (-p)
    unfold swmaNew at h
    progress_new h
  · show TakesAll (swmaPhases (R := R) k)
    simp [TakesAll, swmaPhases]
theorem t3_counts (o : Nat → R) : (t3 (R := R)).CountsBars o := by
  refine countsBars_of _ o (fun k p s h => ?_) (fun k => ?_)
  · replace h : t3New o = .ok (.made k p s) := h
    show t3Start o = .ok (-p)
    unfold t3New at h
    progress_new h
  · show TakesAll (t3Phases (R := R) k)
    simp [TakesAll, t3Phases]
theorem copp_counts (o : Nat → R) : (copp (R := R)).CountsBars o := by
  refine countsBars_of _ o (fun k p s h => ?_) (fun k => ?_)
  · replace h : coppNew o = .ok (.made k p s) := h
    show coppStart o = .ok (-p)
    unfold coppNew at h
    progress_new h
  · show TakesAll (coppPhases (R := R) k)
    simp [TakesAll, coppPhases]
theorem sma_counts (o : Nat → R) : (sma (R := R)).CountsBars o := by
  refine countsBars_of _ o (fun k p s h => ?_) (fun k => ?_)
  · replace h : smaNew o = .ok (.made k p s) := h
    show smaStart o = .ok (-p)
    unfold smaNew at h
    progress_new h
  · show TakesAll (smaPhases (R := R) k)
    simp [TakesAll, smaPhases]
theorem pfe_counts (o : Nat → R) : (pfe (R := R)).CountsBars o := by
  refine countsBars_of _ o (fun k p s h => ?_) (fun k => ?_)
  · replace h : pfeNew o = .ok (.made k p s) := h
    show pfeStart o = .ok (-p)
    unfold pfeNew at h
    progress_new h
  · show TakesAll (pfePhases (R := R) k)
    simp [TakesAll, pfePhases]
theorem cmi_counts (o : Nat → R) : (cmi (R := R)).CountsBars o := by
  refine countsBars_of _ o (fun k p s h => ?_) (fun k => ?_)
  · replace h : cmiNew o = .ok (.made k p s) := h
    show cmiStart o = .ok (-p)
    unfold cmiNew at h
    progress_new h
  · show TakesAll (cmiPhases (R := R) k)
    simp [TakesAll, cmiPhases]
theorem mhlma_counts (o : Nat → R) : (mhlma (R := R)).CountsBars o := by
  refine countsBars_of _ o (fun k p s h => ?_) (fun k => ?_)
  · replace h : mhlmaNew o = .ok (.made k p s) := h
    show mhlmaStart o = .ok (-p)
    unfold mhlmaNew at h
    progress_new h
  · show TakesAll (mhlmaPhases (R := R) k)
    simp [TakesAll, mhlmaPhases]

end Each

end Verif