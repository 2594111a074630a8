import Verif.Props.Params

/-!
# C14 for a single parameter: `Parameter.sample_prior`
-/

namespace GPX.Props
open GPX GPX.Spec

/-- **C14.** `Parameter.sample_prior` accepts every draw of the parameter's own prior and returns a parameter with the flags,
bijector and prior of the given one whose value is the draw mapped by the bijector: entry by entry inside the range the bijector
enforces. A draw of another shape or dtype is refused. -/
theorem C14_sample_prior (p : Param) (draw : Arr) :
    (draw.shape = p.prior.shape → draw.dtype = p.prior.dtype →
      ∃ q, p.samplePrior draw = .ok q ∧ q.trainable = p.trainable ∧ q.bijector = p.bijector ∧ q.prior = p.prior ∧
        q.value.shape = p.prior.shape ∧ q.value.dtype = p.prior.dtype ∧
        q.value.data = draw.data.map p.bijector.forward ∧
        (Spec.sensible p.bijector → ∀ v ∈ q.value.data, v ∈ Spec.range p.bijector)) ∧
    (draw.shape ≠ p.prior.shape ∨ draw.dtype ≠ p.prior.dtype → p.samplePrior draw = .error .valueError) := by
  refine ⟨fun hs hd => ⟨⟨draw.map p.bijector.forward, p.trainable, p.bijector, p.prior⟩, ?_, rfl, rfl, rfl, hs, hd, rfl,
    fun hb v hv => ?_⟩, fun h => ?_⟩
  · simp [Param.samplePrior, Param.update, Param.new, Arr.map, hs, hd]
  · obtain ⟨x, -, rfl⟩ := List.mem_map.mp hv
    exact C01_forward_in_range _ hb x
  · rcases h with h | h
    · simp [Param.samplePrior, Param.update, Param.new, Arr.map, h]
    · by_cases hs : draw.shape = p.prior.shape
      · simp [Param.samplePrior, Param.update, Param.new, Arr.map, hs, h]
      · simp [Param.samplePrior, Param.update, Param.new, Arr.map, hs]

/-- Non-vacuity: a lengthscale with a softplus constraint and a standard normal prior; the draw is negative, the value is not. -/
example : let p : Param := ⟨⟨[], float64, [1]⟩, true, .softplus, ⟨.normal 0 1, [], float64⟩⟩
    ∃ q, p.samplePrior ⟨[], float64, [-3]⟩ = .ok q ∧ ∀ v ∈ q.value.data, 0 < v := by
  intro p
  obtain ⟨q, h1, -, -, -, -, -, -, h⟩ := (C14_sample_prior p ⟨[], float64, [-3]⟩).1 rfl rfl
  exact ⟨q, h1, fun v hv => h trivial v hv⟩

end GPX.Props
