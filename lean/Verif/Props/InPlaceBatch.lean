/- C72: calls whose output array is the input array. Batch functions. -/
import Verif.Proof.InPlace
import Verif.Props.InPlace
import Verif.Core.RatInst
import Verif.Core.Eval

namespace Verif
set_option linter.unusedSectionVars false

/-- What the body of a loop leaves in the state. -/
macro "reread_body" h:ident : tactic => `(tactic| (
  repeat' (first
    | (rw [bind_eq_ok] at $h:ident; obtain ⟨_, _, $h:ident⟩ := $h:ident)
    | (split at $h:ident)
    | (cases $h:ident; done)
    | dsimp only at $h:ident)
  all_goals (try (cases $h:ident))
  all_goals (try rfl)
  all_goals (try (unfold atrLate; split <;> rfl))))

section
variable {R : Type} [Num R]

theorem wr_ok_len {α : Type} {cap : Int} {out out' : List α} {v : α} (h : wr cap out v = .ok out') : out'.length = out.length + 1 := by
  unfold wr at h
  split at h
  · cases h; simp
  · cases h

/-- Every element-wise function of one series may overwrite it. -/
theorem simple1_in_place (op : R → M R) (o : Nat → R) (xs : List R) : simple1IP op o xs = simple1 op o xs := by
  unfold simple1IP simple1
  congr 1
  refine forUp_congr (fun i out => (out.length : Int) = i) rfl (fun i s s' _ _ hi hs => ?_) fun i s _ _ hi => ?_
  · rw [bind_eq_ok] at hs; obtain ⟨_, _, hs⟩ := hs
    rw [bind_eq_ok] at hs; obtain ⟨_, _, hs⟩ := hs
    rw [wr_ok_len hs]; omega
  · rw [rd_over _ _ _ _ (by omega)]

/-- Every element-wise function of two series may overwrite either, or both when they are the same array. -/
theorem simple2_in_place (put : AB R → R → AB R) (op : R → R → R) (o : Nat → R) (xs : List (AB R)) :
    simple2IP put op o xs = simple2 op o xs := by
  unfold simple2IP simple2
  congr 1
  refine forUp_congr (fun i out => (out.length : Int) = i) rfl (fun i s s' _ _ hi hs => ?_) fun i s _ _ hi => ?_
  · rw [bind_eq_ok] at hs; obtain ⟨_, _, hs⟩ := hs
    rw [wr_ok_len hs]; omega
  · rw [rd_over _ _ _ _ (by omega)]
    cases rd xs i <;> rfl

theorem ema_in_place (o : Nat → R) (xs : List R) : emaIP o xs = emaBatch o xs := by
  unfold emaIP emaBatch
  refine bind_congr fun period => ?_
  split
  · rfl
  refine bind_congr fun start => ?_
  split
  · rfl
  refine bind_congr fun val => ?_
  cases hw : wr ((xs.length : Int) - start) ([] : List R) val with
  | error e => rfl
  | ok out =>
    have hl := wr_ok_len hw
    show (forUp 1 _ _ _ >>= _) = (forUp 1 _ _ _ >>= _)
    congr 1
    refine forUp_congr (fun i s => (s.2.length : Int) = i) (by simp [hl]) (fun i s s' _ _ hi hs => ?_) fun i s _ _ hi => ?_
    · dsimp only at hs
      rw [bind_eq_ok] at hs; obtain ⟨_, _, hs⟩ := hs
      rw [bind_eq_ok] at hs; obtain ⟨_, h1, hs⟩ := hs
      cases hs
      rw [wr_ok_len h1]; omega
    · rw [rd_over _ _ _ _ (by omega)]

theorem mom_in_place (o : Nat → R) (xs : List R) : momIP o xs = momBatch o xs := by
  unfold momIP momBatch
  refine bind_congr fun period => ?_
  split
  · rfl
  refine bind_congr fun start => ?_
  split
  · rfl
  congr 1
  refine forUp_congr (fun i out => (out.length : Int) = i - period) (by simp) (fun i s s' _ _ hi hs => ?_) fun i s _ _ hi => ?_
  · rw [bind_eq_ok] at hs; obtain ⟨_, _, hs⟩ := hs
    rw [bind_eq_ok] at hs; obtain ⟨_, _, hs⟩ := hs
    rw [wr_ok_len hs]; omega
  · rw [rd_over _ _ _ _ (by omega), rd_over _ _ _ _ (by omega)]

theorem track_congr (rep : R → R → Bool) {g g' : Int → M R} (trail i : Int) (s : Int × R) (hi : trail ≤ i) (h : ∀ j, trail ≤ j → g j = g' j) :
    track rep g trail i s = track rep g' trail i s := by
  unfold track
  rw [h i hi, h trail le_rfl]
  refine bind_congr fun bar => ?_
  split
  · refine bind_congr fun m => ?_
    refine forUp_congr (fun _ _ => True) trivial (fun _ _ _ _ _ _ _ => trivial) fun j s hj _ _ => ?_
    rw [h j (by omega)]
  · rfl

theorem max_in_place (o : Nat → R) (xs : List R) : maxIP o xs = maxBatch o xs := by
  unfold maxIP maxBatch
  refine bind_congr fun period => ?_
  split
  · rfl
  refine bind_congr fun start => ?_
  split
  · rfl
  refine bind_congr fun m0 => ?_
  congr 1
  refine forUp_congr (fun i s => s.1 = i - (period - 1) ∧ (s.2.2.2.length : Int) = s.1) (by simp) (fun i s s' _ _ hi hs => ?_)
    fun i s _ _ hi => ?_
  · obtain ⟨tr, mi, m, out⟩ := s
    dsimp only at hs hi
    rw [bind_eq_ok] at hs; obtain ⟨_, _, hs⟩ := hs
    rw [bind_eq_ok] at hs; obtain ⟨_, h1, hs⟩ := hs
    cases hs
    dsimp only
    rw [wr_ok_len h1]; omega
  · obtain ⟨tr, mi, m, out⟩ := s
    dsimp only at hi ⊢
    rw [track_congr repMax tr i (mi, m) (by omega) fun j hj => rd_over _ xs out j (by omega)]

/-! ### Streams that read a bar again after writing -/

/-- bf2: with outputs elsewhere, reading the bar again changes nothing. -/
theorem bf2_rereads (o : Nat → R) (chunks : List (List (R))) :
    (bf2 (R := R)).sessionLate (fun r _ => r) bf2Late o chunks = (bf2 (R := R)).session o chunks := by
  refine sessionLate_keep (bf2 (R := R)) bf2Late o (fun k => ?_) (fun k => ?_) chunks
  · show OneEach (bf2Phases (R := R) k)
    unfold bf2Phases
    repeat' (first | exact OneEach.nil | refine OneEach.cons (fun p r s s' w hb => ?_) ?_)
    all_goals (one_body hb)
  · show Rereads bf2Late (bf2Phases (R := R) k)
    unfold bf2Phases
    repeat' (first | exact Rereads.nil | refine Rereads.cons (fun p r s s' w hb hc => ?_) ?_)
    all_goals (reread_body hb)
/-- bf3: with outputs elsewhere, reading the bar again changes nothing. -/
theorem bf3_rereads (o : Nat → R) (chunks : List (List (R))) :
    (bf3 (R := R)).sessionLate (fun r _ => r) bf3Late o chunks = (bf3 (R := R)).session o chunks := by
  refine sessionLate_keep (bf3 (R := R)) bf3Late o (fun k => ?_) (fun k => ?_) chunks
  · show OneEach (bf3Phases (R := R) k)
    unfold bf3Phases
    repeat' (first | exact OneEach.nil | refine OneEach.cons (fun p r s s' w hb => ?_) ?_)
    all_goals (one_body hb)
  · show Rereads bf3Late (bf3Phases (R := R) k)
    unfold bf3Phases
    repeat' (first | exact Rereads.nil | refine Rereads.cons (fun p r s s' w hb hc => ?_) ?_)
    all_goals (reread_body hb)
/-- tsi: with outputs elsewhere, reading the bar again changes nothing. -/
theorem tsi_rereads (o : Nat → R) (chunks : List (List (R))) :
    (tsi (R := R)).sessionLate (fun r _ => r) tsiLate o chunks = (tsi (R := R)).session o chunks := by
  refine sessionLate_keep (tsi (R := R)) tsiLate o (fun k => ?_) (fun k => ?_) chunks
  · show OneEach (tsiPhases (R := R) k)
    unfold tsiPhases
    repeat' (first | exact OneEach.nil | refine OneEach.cons (fun p r s s' w hb => ?_) ?_)
    all_goals (one_body hb)
  · show Rereads tsiLate (tsiPhases (R := R) k)
    unfold tsiPhases
    repeat' (first | exact Rereads.nil | refine Rereads.cons (fun p r s s' w hb hc => ?_) ?_)
    all_goals (reread_body hb)
/-- atr: with outputs elsewhere, reading the bar again changes nothing. -/
theorem atr_rereads (o : Nat → R) (chunks : List (List (HLC R))) :
    (atr (R := R)).sessionLate (fun r _ => r) atrLate o chunks = (atr (R := R)).session o chunks := by
  refine sessionLate_keep (atr (R := R)) atrLate o (fun k => ?_) (fun k => ?_) chunks
  · show OneEach (atrPhases (R := R) k)
    unfold atrPhases
    repeat' (first | exact OneEach.nil | refine OneEach.cons (fun p r s s' w hb => ?_) ?_)
    all_goals (one_body hb)
  · show Rereads atrLate (atrPhases (R := R) k)
    unfold atrPhases
    repeat' (first | exact Rereads.nil | refine Rereads.cons (fun p r s s' w hb hc => ?_) ?_)
    all_goals (reread_body hb)
/-- kc: with outputs elsewhere, reading the bar again changes nothing. -/
theorem kc_rereads (o : Nat → R) (chunks : List (List (HLC R))) :
    (kc (R := R)).sessionLate (fun r _ => r) kcLate o chunks = (kc (R := R)).session o chunks := by
  refine sessionLate_keep (kc (R := R)) kcLate o (fun k => ?_) (fun k => ?_) chunks
  · show OneEach (kcPhases (R := R) k)
    unfold kcPhases
    repeat' (first | exact OneEach.nil | refine OneEach.cons (fun p r s s' w hb => ?_) ?_)
    all_goals (one_body hb)
  · show Rereads kcLate (kcPhases (R := R) k)
    unfold kcPhases
    repeat' (first | exact Rereads.nil | refine Rereads.cons (fun p r s s' w hb hc => ?_) ?_)
    all_goals (reread_body hb)
/-- ce: with outputs elsewhere, reading the bar again changes nothing. -/
theorem ce_rereads (o : Nat → R) (chunks : List (List (HLC R))) :
    (ce (R := R)).sessionLate (fun r _ => r) ceLate o chunks = (ce (R := R)).session o chunks := by
  refine sessionLate_keep (ce (R := R)) ceLate o (fun k => ?_) (fun k => ?_) chunks
  · show OneEach (cePhases (R := R) k)
    unfold cePhases
    repeat' (first | exact OneEach.nil | refine OneEach.cons (fun p r s s' w hb => ?_) ?_)
    all_goals (one_body hb)
  · show Rereads ceLate (cePhases (R := R) k)
    unfold cePhases
    repeat' (first | exact Rereads.nil | refine Rereads.cons (fun p r s s' w hb hc => ?_) ?_)
    all_goals (reread_body hb)

end

/-! ### In place, these disagree -/

/-- Streams that read a bar again after writing go wrong when they overwrite the series (or the close). -/
theorem stream_in_place_violates :
    (∃ (o : Nat → Rat) (chunks : List (List Rat)), (bf2 (R := Rat)).sessionLate (fun _ y => y) bf2Late o chunks ≠ (bf2 (R := Rat)).session o chunks) ∧
    (∃ (o : Nat → Rat) (chunks : List (List Rat)), (bf3 (R := Rat)).sessionLate (fun _ y => y) bf3Late o chunks ≠ (bf3 (R := Rat)).session o chunks) ∧
    (∃ (o : Nat → Rat) (chunks : List (List Rat)), (tsi (R := Rat)).sessionLate (fun _ y => y) tsiLate o chunks ≠ (tsi (R := Rat)).session o chunks) ∧
    (∃ (o : Nat → Rat) (chunks : List (List (HLC Rat))),
      (atr (R := Rat)).sessionLate (fun r y => { r with close := y }) atrLate o chunks ≠ (atr (R := Rat)).session o chunks) ∧
    (∃ (o : Nat → Rat) (chunks : List (List (HLC Rat))),
      (kc (R := Rat)).sessionLate (fun r y => { r with close := y.middle }) kcLate o chunks ≠ (kc (R := Rat)).session o chunks) ∧
    ∃ (o : Nat → Rat) (chunks : List (List (HLC Rat))),
      (ce (R := Rat)).sessionLate (fun r y => { r with close := y.high }) ceLate o chunks ≠ (ce (R := Rat)).session o chunks := by
  refine ⟨⟨opts [2], [[1, 2], [3, 4]], ?_⟩, ⟨opts [2], [[1, 2], [3, 4]], ?_⟩, ⟨opts [2, 2], [[1, 2], [4, 3, 9]], ?_⟩,
    ⟨opts [2], [[⟨2, 1, 1⟩, ⟨3, 1, 2⟩], [⟨4, 2, 3⟩, ⟨5, 3, 4⟩, ⟨9, 3, 5⟩]], ?_⟩,
    ⟨opts [2, 1], [[⟨2, 1, 1⟩, ⟨3, 1, 2⟩], [⟨4, 2, 3⟩, ⟨5, 3, 4⟩, ⟨9, 3, 5⟩]], ?_⟩,
    ⟨opts [2, 1], [[⟨2, 1, 1⟩, ⟨3, 1, 2⟩], [⟨4, 2, 3⟩, ⟨5, 3, 4⟩, ⟨9, 3, 5⟩]], ?_⟩⟩
  all_goals (decide +kernel)

/-- Nothing special is needed for the others. -/
example : (sma (R := Rat)).sessionIP (fun _ y => y) (opts [2]) [[1, 2], [3, 4, 8]] = .ok (.okay, 4, [3/2, 5/2, 7/2, 6]) := by
  decide +kernel
example : emaIP (opts [3] : Nat → Rat) [1, 2, 3] = .ok (.okay, [1, 3/2, 9/4]) := by decide +kernel
example : momIP (opts [2] : Nat → Rat) [1, 2, 5, 7] = .ok (.okay, [4, 5]) := by decide +kernel
example : maxIP (opts [2] : Nat → Rat) [1, 7, 5, 6] = .ok (.okay, [7, 7, 6]) := by decide +kernel

end Verif
