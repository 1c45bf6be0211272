import Verif.Model.Distribution

/-!
# Default distributions of parameters
-/

namespace CCS

/-- `ccs_parameter_get_default_distribution`, `src/parameter.c:40-51`: `_ccs_parameter_numerical_get_default_distribution`,
`src/parameter_numerical.c:212-225`, `_ccs_parameter_categorical_get_default_distribution`, `src/parameter_categorical.c:218-230`, and
`_ccs_parameter_string_get_default_distribution`, `src/parameter_string.c:196-206`. -/
def defaultDistribution {σ : Type} (M : Machine σ) (p : Param) : Out (Sampler σ) :=
  match p.kind with
  | .numerical iv q => createUniform M iv.type iv.lower iv.upper false q
  | .categorical _ _ => createUniform M p.interval.type p.interval.lower p.interval.upper false 0#64
  | .string => .err .unsupportedOperation

end CCS
