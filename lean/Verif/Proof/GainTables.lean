/- The tables of gf2, gf4, bf2 and bf3 pass the check of Proof/Gain: one computation per row. -/
import Verif.Proof.Gain
import Verif.Model.Filters

namespace Verif

theorem gf2_cert : ∀ i : Fin 20, Gain.check (gf2B0.getD i.val 0 + gf2A1.getD i.val 0 + gf2A2.getD i.val 0) (gf2A1.getD i.val 0) (gf2A2.getD i.val 0) 0 0 (101 * (gf2B0.getD i.val 0 + gf2A1.getD i.val 0 + gf2A2.getD i.val 0)) (100 * gf2B0.getD i.val 0) 4 60 (gf2A1.getD i.val 0) (gf2A2.getD i.val 0) 0 0 1 (gf2B0.getD i.val 0 + gf2A1.getD i.val 0 + gf2A2.getD i.val 0) = true := by decide +kernel
theorem bf2_cert : ∀ i : Fin 20, Gain.check 1000000 (bf2A1.getD i.val 0) (bf2A2.getD i.val 0) 0 0 ((if i.val = 0 then 131 else 112) * 1000000) (100 * (bf2B0.getD i.val 0 + bf2B1.getD i.val 0 + bf2B2.getD i.val 0)) 6 80 (bf2A1.getD i.val 0) (bf2A2.getD i.val 0) 0 0 1 1000000 = true := by decide +kernel
theorem bf3_cert : ∀ i : Fin 20, Gain.check 1000000 (bf3A1.getD i.val 0) (bf3A2.getD i.val 0) (bf3A3.getD i.val 0) 0 ((if i.val = 0 then 200 else 131) * 1000000) (100 * (bf3B0.getD i.val 0 + bf3B1.getD i.val 0 + bf3B2.getD i.val 0 + bf3B3.getD i.val 0)) 70 110 (bf3A1.getD i.val 0) (bf3A2.getD i.val 0) (bf3A3.getD i.val 0) 0 1 1000000 = true := by decide +kernel
theorem gf4_cert : ∀ i : Fin 20, i.val < 15 → Gain.check (gf4B0.getD i.val 0 + gf4A1.getD i.val 0 + gf4A2.getD i.val 0 + gf4A3.getD i.val 0 + gf4A4.getD i.val 0)
    (gf4A1.getD i.val 0) (gf4A2.getD i.val 0) (gf4A3.getD i.val 0) (gf4A4.getD i.val 0)
    (4 * (gf4B0.getD i.val 0 + gf4A1.getD i.val 0 + gf4A2.getD i.val 0 + gf4A3.getD i.val 0 + gf4A4.getD i.val 0)) (gf4B0.getD i.val 0) 7 225
    (gf4A1.getD i.val 0) (gf4A2.getD i.val 0) (gf4A3.getD i.val 0) (gf4A4.getD i.val 0) 1
    (gf4B0.getD i.val 0 + gf4A1.getD i.val 0 + gf4A2.getD i.val 0 + gf4A3.getD i.val 0 + gf4A4.getD i.val 0) = true := by decide +kernel

/-- A form that grows, for each of the last five rows of the table. -/
def gf4Form (i : Nat) : Gain.Form :=
  if i = 15 then ⟨-30, 47, -80, 29, -69, 119, -65, -135, 64, -32⟩
  else if i = 16 then ⟨-100, 157, -278, 102, -225, 408, -229, -478, 231, -119⟩
  else if i = 17 then ⟨-30, 47, -86, 32, -66, 125, -72, -151, 74, -39⟩
  else if i = 18 then ⟨-30, 47, -89, 33, -64, 127, -74, -157, 78, -42⟩
  else ⟨-30, 46, -91, 34, -61, 128, -76, -163, 81, -45⟩

theorem gf4_growth : ∀ i : Fin 20, 15 ≤ i.val → (gf4Form i.val).grows
    (gf4B0.getD i.val 0 + gf4A1.getD i.val 0 + gf4A2.getD i.val 0 + gf4A3.getD i.val 0 + gf4A4.getD i.val 0)
    (gf4A1.getD i.val 0) (gf4A2.getD i.val 0) (gf4A3.getD i.val 0) (gf4A4.getD i.val 0) 102 100 = true ∧
    0 < (gf4Form i.val).p11 - 2 * (gf4Form i.val).p12 - 2 * (gf4Form i.val).p13 + 2 * (gf4Form i.val).p14 + (gf4Form i.val).p22
      + 2 * (gf4Form i.val).p23 - 2 * (gf4Form i.val).p24 + (gf4Form i.val).p33 - 2 * (gf4Form i.val).p34 + (gf4Form i.val).p44 := by decide +kernel

end Verif
