/- C02: the table offers a stream for exactly the functions whose source defines one. -/
import Verif.Model.StreamSources
import Verif.Props.Table

namespace Verif

/-- The entries of `indicators.yaml` with the `stream` feature are those whose source file defines a stream: no generated pointer is left without
a definition, and no defined stream is left out of the table. -/
theorem yaml_streams : ∀ X, (X, true) ∈ indicatorsYaml ↔ X ∈ streamSources := by
  have h1 : ∀ e ∈ indicatorsYaml, e.2 = true → e.1 ∈ streamSources := by decide +kernel
  have h2 : ∀ X ∈ streamSources, (X, true) ∈ indicatorsYaml := by decide +kernel
  exact fun X => ⟨fun h => h1 _ h rfl, h2 X⟩

example : bytes "sma" ∈ streamSources ∧ bytes "ema" ∉ streamSources := by decide +kernel

end Verif
