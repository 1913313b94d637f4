/- C72: batch calls of functions of several series whose output array is one of the input arrays. -/
import Verif.Model.InPlaceBars
import Verif.Props.InPlaceBatch

namespace Verif
set_option linter.unusedSectionVars false

section
variable {R σ β : Type}

/-- Two loops whose bodies agree on the states that satisfy an invariant, followed by what agrees on such states. -/
theorem forUp_bind_congr {f g : Int → σ → M σ} {k k' : σ → M β} (I : Int → σ → Prop) {lo hi : Int} {s : σ} (h0 : I lo s) (hle : lo ≤ hi)
    (hs : ∀ i s s', lo ≤ i → i < hi → I i s → f i s = .ok s' → I (i + 1) s') (he : ∀ i s, lo ≤ i → i < hi → I i s → f i s = g i s)
    (hk : ∀ s, I hi s → k s = k' s) : (forUp lo hi s f >>= k) = (forUp lo hi s g >>= k') := by
  rw [← forUp_congr I h0 hs he]
  have gen : ∀ (n : Nat) (i : Int) (s s' : σ), lo ≤ i → i + n = hi → I i s → iter f n i s = .ok s' → I hi s' := by
    intro n
    induction n with
    | zero => intro i s s' _ h2 h3 h4; cases h4; rwa [show hi = i by omega]
    | succ n ih =>
      intro i s s' h1 h2 h3 h4
      simp only [iter] at h4
      cases hf : f i s with
      | error e => rw [hf] at h4; cases h4
      | ok t => rw [hf] at h4; exact ih (i + 1) t s' (by omega) (by omega) (hs i s t h1 (by omega) h3 hf) h4
  cases hf : forUp lo hi s f with
  | error e => rfl
  | ok s' => exact hk s' (gen _ lo s s' le_rfl (by omega) h0 hf)

/-- A column that is not overwritten is still the input. -/
theorem rd_over_keep {ρ γ : Type} (put : ρ → R → ρ) (key : ρ → γ) (hp : ∀ r y, key (put r y) = key r) (k : γ → M β) :
    ∀ (rs : List ρ) (ys : List R) (i : Int), (rd (overWith put rs ys) i >>= fun q => k (key q)) = (rd rs i >>= fun q => k (key q)) := by
  intro rs ys i
  have hm : (overWith put rs ys).map key = rs.map key := by
    induction rs generalizing ys with
    | nil => cases ys <;> rfl
    | cons r rs ih => cases ys with
      | nil => rfl
      | cons y ys => simp only [overWith, List.map_cons, hp, ih]
  have hr : ∀ l : List ρ, (rd l i >>= fun q => k (key q)) = (rd (l.map key) i >>= k) := by
    intro l
    unfold rd
    by_cases h : 0 ≤ i ∧ i.toNat < l.length
    · rw [dif_pos h, dif_pos (by rwa [List.length_map])]
      show k _ = k _
      rw [List.getElem_map]
    · rw [dif_neg h, dif_neg (by rwa [List.length_map])]
      rfl
  rw [hr, hr, hm]

variable [Num R]

/-- Loops that read bar `i` and write value `i`. -/
macro "bars_in_place" : tactic => `(tactic| (
  congr 1
  refine forUp_congr (fun i out => (out.length : Int) = i) rfl (fun i s s' _ _ hi hs => ?_) fun i s _ _ hi => ?_
  · rw [bind_eq_ok] at hs; obtain ⟨_, _, hs⟩ := hs
    first
      | (rw [wr_ok_len hs]; omega)
      | (dsimp only at hs; split at hs <;> (rw [wr_ok_len hs]; omega))
  · rw [rd_over _ _ _ _ (by omega)]))

theorem avgprice_apart (o : Nat → R) (xs : List (OHLC R)) : avgpriceVia (fun xs _ => xs) o xs = avgpriceBatch o xs := rfl
theorem medprice_apart (o : Nat → R) (xs : List (HL R)) : medpriceVia (fun xs _ => xs) o xs = medpriceBatch o xs := rfl
theorem typprice_apart (o : Nat → R) (xs : List (HLC R)) : typpriceVia (fun xs _ => xs) o xs = typpriceBatch o xs := rfl
theorem wcprice_apart (o : Nat → R) (xs : List (HLC R)) : wcpriceVia (fun xs _ => xs) o xs = wcpriceBatch o xs := rfl
theorem bop_apart (o : Nat → R) (xs : List (OHLC R)) : bopVia (fun xs _ => xs) o xs = bopBatch o xs := rfl
theorem marketfi_apart (o : Nat → R) (xs : List (HLV R)) : marketfiVia (fun xs _ => xs) o xs = marketfiBatch o xs := rfl
theorem emv_apart (o : Nat → R) (xs : List (HLV R)) : emvVia (fun xs _ => xs) o xs = emvBatch o xs := rfl
theorem crossany_apart (o : Nat → R) (xs : List (AB R)) : crossanyVia (fun xs _ => xs) o xs = crossanyBatch o xs := rfl
theorem crossover_apart (o : Nat → R) (xs : List (AB R)) : crossoverVia (fun xs _ => xs) o xs = crossoverBatch o xs := rfl
theorem tr_apart (o : Nat → R) (xs : List (HLC R)) : trVia (fun xs _ => xs) o xs = trBatch o xs := rfl
theorem atr_apart (o : Nat → R) (xs : List (HLC R)) : atrVia (fun xs _ => xs) o xs = atrBatch o xs := rfl
theorem natr_apart (o : Nat → R) (xs : List (HLC R)) : natrVia (fun xs _ => xs) o xs = natrBatch o xs := rfl
theorem ad_apart (o : Nat → R) (xs : List (HLCV R)) : adVia (fun xs _ => xs) o xs = adBatch o xs := rfl
theorem obv_apart (o : Nat → R) (xs : List (CV R)) : obvVia (fun xs _ => xs) o xs = obvBatch o xs := rfl
theorem wad_apart (o : Nat → R) (xs : List (HLC R)) : wadVia (fun xs _ => xs) o xs = wadBatch o xs := rfl
theorem adosc_apart (o : Nat → R) (xs : List (HLCV R)) : adoscVia (fun xs _ => xs) o xs = adoscBatch o xs := rfl
theorem nvi_apart (o : Nat → R) (xs : List (CV R)) : nviVia (fun xs _ => xs) o xs = nviBatch o xs := rfl
theorem pvi_apart (o : Nat → R) (xs : List (CV R)) : pviVia (fun xs _ => xs) o xs = pviBatch o xs := rfl

/-- avgprice may overwrite any of its inputs. -/
theorem avgprice_in_place (put : OHLC R → R → OHLC R) (o : Nat → R) (xs : List (OHLC R)) :
    avgpriceVia (overWith put) o xs = avgpriceBatch o xs := by
  unfold avgpriceVia avgpriceBatch
  bars_in_place
theorem medprice_in_place (put : HL R → R → HL R) (o : Nat → R) (xs : List (HL R)) :
    medpriceVia (overWith put) o xs = medpriceBatch o xs := by
  unfold medpriceVia medpriceBatch
  bars_in_place
theorem typprice_in_place (put : HLC R → R → HLC R) (o : Nat → R) (xs : List (HLC R)) :
    typpriceVia (overWith put) o xs = typpriceBatch o xs := by
  unfold typpriceVia typpriceBatch
  bars_in_place
theorem wcprice_in_place (put : HLC R → R → HLC R) (o : Nat → R) (xs : List (HLC R)) :
    wcpriceVia (overWith put) o xs = wcpriceBatch o xs := by
  unfold wcpriceVia wcpriceBatch
  bars_in_place
theorem bop_in_place (put : OHLC R → R → OHLC R) (o : Nat → R) (xs : List (OHLC R)) :
    bopVia (overWith put) o xs = bopBatch o xs := by
  unfold bopVia bopBatch
  bars_in_place
theorem marketfi_in_place (put : HLV R → R → HLV R) (o : Nat → R) (xs : List (HLV R)) :
    marketfiVia (overWith put) o xs = marketfiBatch o xs := by
  unfold marketfiVia marketfiBatch
  split
  · rfl
  bars_in_place

theorem emv_in_place (put : HLV R → R → HLV R) (o : Nat → R) (xs : List (HLV R)) :
    emvVia (overWith put) o xs = emvBatch o xs := by
  unfold emvVia emvBatch
  split
  · rfl
  refine bind_congr fun r0 => ?_
  dsimp only
  congr 1
  refine forUp_congr (fun i (s : R × List R) => (s.2.length : Int) = i - 1) rfl (fun i s s' _ _ hi hs => ?_) fun i s _ _ hi => ?_
  · rw [bind_eq_ok] at hs; obtain ⟨_, _, hs⟩ := hs
    rw [bind_eq_ok] at hs; obtain ⟨_, h1, hs⟩ := hs
    cases hs
    dsimp only
    rw [wr_ok_len h1]; omega
  · rw [rd_over _ _ _ _ (by omega)]

theorem crossany_in_place (put : AB R → R → AB R) (o : Nat → R) (xs : List (AB R)) :
    crossanyVia (overWith put) o xs = crossanyBatch o xs := by
  unfold crossanyVia crossanyBatch
  congr 1
  refine forUp_congr (fun i out => (out.length : Int) = i - 1) rfl (fun i s s' _ _ hi hs => ?_) fun i s _ _ hi => ?_
  · rw [bind_eq_ok] at hs; obtain ⟨_, _, hs⟩ := hs
    rw [bind_eq_ok] at hs; obtain ⟨_, _, hs⟩ := hs
    rw [wr_ok_len hs]; omega
  · rw [rd_over _ _ _ _ (by omega), rd_over _ _ _ _ (by omega)]

theorem crossover_in_place (put : AB R → R → AB R) (o : Nat → R) (xs : List (AB R)) :
    crossoverVia (overWith put) o xs = crossoverBatch o xs := by
  unfold crossoverVia crossoverBatch
  congr 1
  refine forUp_congr (fun i out => (out.length : Int) = i - 1) rfl (fun i s s' _ _ hi hs => ?_) fun i s _ _ hi => ?_
  · rw [bind_eq_ok] at hs; obtain ⟨_, _, hs⟩ := hs
    rw [bind_eq_ok] at hs; obtain ⟨_, _, hs⟩ := hs
    rw [wr_ok_len hs]; omega
  · rw [rd_over _ _ _ _ (by omega), rd_over _ _ _ _ (by omega)]

theorem ad_in_place (put : HLCV R → R → HLCV R) (o : Nat → R) (xs : List (HLCV R)) :
    adVia (overWith put) o xs = adBatch o xs := by
  unfold adVia adBatch
  dsimp only
  congr 1
  refine forUp_congr (fun i (s : R × List R) => (s.2.length : Int) = i) rfl (fun i s s' _ _ hi hs => ?_) fun i s _ _ hi => ?_
  · obtain ⟨va, ou⟩ := s
    dsimp only at hs hi
    rw [bind_eq_ok] at hs; obtain ⟨_, _, hs⟩ := hs
    rw [bind_eq_ok] at hs; obtain ⟨_, h1, hs⟩ := hs
    cases hs
    dsimp only
    rw [wr_ok_len h1]; omega
  · obtain ⟨va, ou⟩ := s
    dsimp only at hi ⊢
    rw [rd_over _ _ _ _ (by omega)]

theorem obv_in_place (put : CV R → R → CV R) (o : Nat → R) (xs : List (CV R)) :
    obvVia (overWith put) o xs = obvBatch o xs := by
  unfold obvVia obvBatch
  refine forUp_bind_congr (fun i (s : Option R × List R) => (s.2.length : Int) = i) rfl (by omega) (fun i s s' _ _ hi hs => ?_) (fun i s _ _ hi => ?_) fun s hi => ?_
  · obtain ⟨va, ou⟩ := s
    dsimp only at hs hi
    rw [bind_eq_ok] at hs; obtain ⟨_, _, hs⟩ := hs
    rw [bind_eq_ok] at hs; obtain ⟨_, h1, hs⟩ := hs
    cases hs
    dsimp only
    rw [wr_ok_len h1]; omega
  · obtain ⟨va, ou⟩ := s
    dsimp only at hi ⊢
    rw [rd_over _ _ _ _ (by omega)]
  · congr 1
    refine forUp_congr (fun i (s : Option R × R × List R) => (s.2.2.length : Int) = i) hi (fun i s s' _ _ hi hs => ?_) fun i s _ _ hi => ?_
    · obtain ⟨va, vb, ou⟩ := s
      dsimp only at hs hi
      rw [bind_eq_ok] at hs; obtain ⟨_, _, hs⟩ := hs
      rw [bind_eq_ok] at hs; obtain ⟨_, _, hs⟩ := hs
      rw [bind_eq_ok] at hs; obtain ⟨_, h1, hs⟩ := hs
      cases hs
      dsimp only
      rw [wr_ok_len h1]; omega
    · obtain ⟨va, vb, ou⟩ := s
      dsimp only at hi ⊢
      rw [rd_over _ _ _ _ (by omega)]

theorem wad_in_place (put : HLC R → R → HLC R) (o : Nat → R) (xs : List (HLC R)) :
    wadVia (overWith put) o xs = wadBatch o xs := by
  unfold wadVia wadBatch
  refine bind_congr fun start => ?_
  split
  · rfl
  refine bind_congr fun r0 => ?_
  congr 1
  refine forUp_congr (fun i (s : R × R × List R) => (s.2.2.length : Int) = i - 1) rfl (fun i s s' _ _ hi hs => ?_) fun i s _ _ hi => ?_
  · obtain ⟨va, vb, ou⟩ := s
    dsimp only at hs hi
    rw [bind_eq_ok] at hs; obtain ⟨_, _, hs⟩ := hs
    rw [bind_eq_ok] at hs; obtain ⟨_, h1, hs⟩ := hs
    cases hs
    dsimp only
    rw [wr_ok_len h1]; omega
  · obtain ⟨va, vb, ou⟩ := s
    dsimp only at hi ⊢
    rw [rd_over _ _ _ _ (by omega)]

theorem adosc_in_place (put : HLCV R → R → HLCV R) (o : Nat → R) (xs : List (HLCV R)) :
    adoscVia (overWith put) o xs = adoscBatch o xs := by
  unfold adoscVia adoscBatch
  refine bind_congr fun short => ?_
  refine bind_congr fun long => ?_
  refine bind_congr fun start => ?_
  split
  · rfl
  split
  · rfl
  refine bind_congr fun start' => ?_
  split
  · rfl
  dsimp only
  congr 1
  refine forUp_congr (fun i (s : R × R × R × List R) => (s.2.2.2.length : Int) ≤ i) (by simp) (fun i s s' _ _ hi hs => ?_) fun i s _ _ hi => ?_
  · obtain ⟨va, vb, vc, ou⟩ := s
    dsimp only at hs hi
    rw [bind_eq_ok] at hs; obtain ⟨_, _, hs⟩ := hs
    split at hs
    · rw [bind_eq_ok] at hs; obtain ⟨_, h1, hs⟩ := hs
      cases hs
      dsimp only
      rw [wr_ok_len h1]; omega
    · cases hs
      dsimp only
      omega
  · obtain ⟨va, vb, vc, ou⟩ := s
    dsimp only at hi ⊢
    rw [rd_over _ _ _ _ (by omega)]

/-- tr reads the previous close after its place was overwritten: any other input may be overwritten. -/
theorem tr_in_place_partial (put : HLC R → R → HLC R) (hp : ∀ r y, (put r y).close = r.close) (o : Nat → R) (xs : List (HLC R)) :
    trVia (overWith put) o xs = trBatch o xs := by
  unfold trVia trBatch
  refine forUp_bind_congr (fun i s => (s.length : Int) = i) rfl (by omega) (fun i s s' _ _ hi hs => ?_) (fun i s _ _ hi => ?_) fun s hi => ?_
  · rw [bind_eq_ok] at hs; obtain ⟨_, _, hs⟩ := hs
    rw [wr_ok_len hs]; omega
  · rw [rd_over _ _ _ _ (by omega)]
  · congr 1
    refine forUp_congr (fun i s => (s.length : Int) = i) hi (fun i s s' _ _ hi hs => ?_) fun i s _ _ hi => ?_
    · rw [bind_eq_ok] at hs; obtain ⟨_, _, hs⟩ := hs
      rw [bind_eq_ok] at hs; obtain ⟨_, _, hs⟩ := hs
      rw [wr_ok_len hs]; omega
    · rw [rd_over _ _ _ _ (by omega)]
      refine bind_congr fun r => ?_
      exact rd_over_keep put HLC.close hp (fun c => wr (xs.length : Int) s (trueRange r.high r.low c)) xs s (i - 1)

/-- atr may overwrite any of its inputs when the period is at least 2. -/
theorem atr_in_place_partial (put : HLC R → R → HLC R) (o : Nat → R) (hp : ∀ p, toInt (o 0) = .ok p → p ≠ 1) (xs : List (HLC R)) :
    atrVia (overWith put) o xs = atrBatch o xs := by
  unfold atrVia atrBatch
  cases hq : toInt (o 0) with
  | error e => rfl
  | ok period =>
    have h1 := hp period hq
    show (if _ then _ else _) = (if _ then _ else _)
    split
    · rfl
    refine bind_congr fun start => ?_
    split
    · rfl
    refine bind_congr fun r0 => ?_
    refine bind_congr fun sum => ?_
    dsimp only
    cases hw : wr ((xs.length : Int) - start) ([] : List R) (sum / (period : R)) with
    | error e => rfl
    | ok out =>
      have hl := wr_ok_len hw
      show (forUp _ _ _ _ >>= _) = (forUp _ _ _ _ >>= _)
      congr 1
      refine forUp_congr (fun i (s : R × List R) => (s.2.length : Int) = i - period + 1) (by simp [hl]) (fun i s s' _ _ hi hs => ?_) fun i s _ _ hi => ?_
      · obtain ⟨va, ou⟩ := s
        dsimp only at hs hi
        rw [bind_eq_ok] at hs; obtain ⟨_, _, hs⟩ := hs
        rw [bind_eq_ok] at hs; obtain ⟨_, _, hs⟩ := hs
        rw [bind_eq_ok] at hs; obtain ⟨_, h1, hs⟩ := hs
        cases hs
        dsimp only
        rw [wr_ok_len h1]; omega
      · obtain ⟨va, ou⟩ := s
        dsimp only at hi ⊢
        rw [rd_over _ _ _ _ (by omega), rd_over _ _ _ _ (by omega)]

/-- natr may overwrite any of its inputs when the period is at least 2. -/
theorem natr_in_place_partial (put : HLC R → R → HLC R) (o : Nat → R) (hp : ∀ p, toInt (o 0) = .ok p → p ≠ 1) (xs : List (HLC R)) :
    natrVia (overWith put) o xs = natrBatch o xs := by
  unfold natrVia natrBatch
  cases hq : toInt (o 0) with
  | error e => rfl
  | ok period =>
    have h1 := hp period hq
    show (if _ then _ else _) = (if _ then _ else _)
    split
    · rfl
    refine bind_congr fun start => ?_
    split
    · rfl
    refine bind_congr fun r0 => ?_
    refine bind_congr fun sum => ?_
    refine bind_congr fun rp => ?_
    cases hw : wr ((xs.length : Int) - start) ([] : List R) (natrOut (sum / (period : R)) rp.close) with
    | error e => rfl
    | ok out =>
      have hl := wr_ok_len hw
      show (forUp _ _ _ _ >>= _) = (forUp _ _ _ _ >>= _)
      congr 1
      refine forUp_congr (fun i (s : R × List R) => (s.2.length : Int) = i - period + 1) (by simp [hl]) (fun i s s' _ _ hi hs => ?_) fun i s _ _ hi => ?_
      · obtain ⟨va, ou⟩ := s
        dsimp only at hs hi
        rw [bind_eq_ok] at hs; obtain ⟨_, _, hs⟩ := hs
        rw [bind_eq_ok] at hs; obtain ⟨_, _, hs⟩ := hs
        rw [bind_eq_ok] at hs; obtain ⟨_, h1, hs⟩ := hs
        cases hs
        dsimp only
        rw [wr_ok_len h1]; omega
      · obtain ⟨va, ou⟩ := s
        dsimp only at hi ⊢
        rw [rd_over _ _ _ _ (by omega), rd_over _ _ _ _ (by omega)]
end

/-- tr over the close, atr and natr with period 1 over the close, and nvi and pvi over either input read what they have overwritten. -/
theorem bars_in_place_violates :
    (∃ (o : Nat → ℚ) (xs : List (HLC ℚ)), trVia (overWith fun r y => { r with close := y }) o xs ≠ trBatch o xs) ∧
    (∃ (o : Nat → ℚ) (xs : List (HLC ℚ)), o 0 = 1 ∧ atrVia (overWith fun r y => { r with close := y }) o xs ≠ atrBatch o xs) ∧
    (∃ (o : Nat → ℚ) (xs : List (HLC ℚ)), o 0 = 1 ∧ natrVia (overWith fun r y => { r with close := y }) o xs ≠ natrBatch o xs) ∧
    (∃ (o : Nat → ℚ) (xs : List (CV ℚ)), nviVia (overWith fun r y => { r with close := y }) o xs ≠ nviBatch o xs) ∧
    (∃ (o : Nat → ℚ) (xs : List (CV ℚ)), nviVia (overWith fun r y => { r with volume := y }) o xs ≠ nviBatch o xs) ∧
    (∃ (o : Nat → ℚ) (xs : List (CV ℚ)), pviVia (overWith fun r y => { r with close := y }) o xs ≠ pviBatch o xs) ∧
    ∃ (o : Nat → ℚ) (xs : List (CV ℚ)), pviVia (overWith fun r y => { r with volume := y }) o xs ≠ pviBatch o xs := by
  refine ⟨⟨opts [], [⟨5, 3, 4⟩, ⟨6, 4, 5⟩, ⟨9, 8, 8⟩], ?_⟩, ⟨opts [1], [⟨5, 3, 4⟩, ⟨6, 4, 5⟩, ⟨9, 8, 8⟩], rfl, ?_⟩,
    ⟨opts [1], [⟨5, 3, 4⟩, ⟨6, 4, 5⟩, ⟨9, 8, 8⟩], rfl, ?_⟩, ⟨opts [], [⟨5, 3⟩, ⟨6, 2⟩], ?_⟩, ⟨opts [], [⟨5, 3⟩, ⟨6, 4⟩], ?_⟩,
    ⟨opts [], [⟨5, 3⟩, ⟨6, 4⟩], ?_⟩, ⟨opts [], [⟨5, 3⟩, ⟨6, 4⟩], ?_⟩⟩
  all_goals (decide +kernel)

example : medpriceVia (overWith fun r y => { r with high := y }) (opts [] : Nat → ℚ) [⟨5, 3⟩, ⟨7, 4⟩] = .ok (.okay, [4, 11/2]) := by decide +kernel
example : crossanyVia (overWith fun r y => { r with a := y }) (opts [] : Nat → ℚ) [⟨1, 2⟩, ⟨3, 2⟩, ⟨1, 2⟩] = .ok (.okay, [1, 1]) := by decide +kernel
example : trVia (overWith fun r y => { r with high := y }) (opts [] : Nat → ℚ) [⟨5, 3, 4⟩, ⟨7, 6, 6⟩] = .ok (.okay, [2, 3]) := by decide +kernel
example : ∀ p, toInt ((opts [2] : Nat → ℚ) 0) = .ok p → p ≠ 1 := by
  intro p h
  have : toInt ((opts [2] : Nat → ℚ) 0) = .ok 2 := by decide +kernel
  rw [this] at h; cases h; decide
example : atrVia (overWith fun r y => { r with close := y }) (opts [2] : Nat → ℚ) [⟨5, 3, 4⟩, ⟨7, 6, 6⟩, ⟨9, 8, 8⟩] = .ok (.okay, [5/2, 11/4]) := by
  decide +kernel

end Verif
