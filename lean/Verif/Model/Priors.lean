import Mathlib.Analysis.SpecialFunctions.Gamma.Basic

/-!
# Model of `gpx/priors.py`

Elementwise functions, over `ℝ`. The random generators `random.normal` and `random.gamma` are
external: their result is an argument (`draw`) of the model.
-/

namespace GPX
noncomputable section

/-- `priors.py:39-60` `normal_sample`: `loc + scale * random.normal(key)`; `draw` is the
library's standard normal draw. -/
def normalSample (loc scale draw : ℝ) : ℝ := loc + scale * draw

/-- `priors.py:63-84` `normal_logpdf`. -/
def normalLogpdf (x loc scale : ℝ) : ℝ :=
  -Real.log scale - 0.5 * Real.log (2 * Real.pi) - 0.5 * (1.0 / scale ^ 2) * (x - loc) ^ 2

/-- `priors.py:92-110` `gamma_sample`: `random.gamma(key, a) / rate`; `draw` is the library's
draw from Gamma(concentration, 1). -/
def gammaSample (rate draw : ℝ) : ℝ := draw / rate

/-- `priors.py:113-133` `gamma_logpdf`; `gammaln` is `log ∘ Γ` (used for positive arguments). -/
def gammaLogpdf (x concentration rate : ℝ) : ℝ :=
  concentration * Real.log rate - Real.log (Real.Gamma concentration)
    + (concentration - 1.0) * Real.log x - rate * x

/-- The prior classes of `priors.py:190-300`. `shape`/`dtype` are handled in `Model/Params.lean`. -/
inductive Prior where
  | normal (loc scale : ℝ)
  | gamma (concentration rate : ℝ)

/-- `Prior.logpdf`: `priors.py:237-238`, `295-300`. -/
def Prior.logpdf : Prior → ℝ → ℝ
  | .normal l s, x => normalLogpdf x l s
  | .gamma a r, x => gammaLogpdf x a r

/-- `Prior.sample`: `priors.py:232-235`, `286-293`, given the library's raw draw. -/
def Prior.sample : Prior → ℝ → ℝ
  | .normal l s, z => normalSample l s z
  | .gamma _ r, z => gammaSample r z

end
end GPX
