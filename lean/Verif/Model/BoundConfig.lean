import Verif.Model.BoundEval
import Verif.Model.BoundTuner

/-!
# Configurations, features and generators used from Python and Ruby

Models the creation of `Configuration` and `Features` (`bindings/python/cconfigspace/configuration.py`, `features.py`,
`bindings/ruby/lib/cconfigspace/configuration.rb`, `features.rb`), what `ConfigurationSpace` and `FeaturesSpace` check and sample
(`configuration_space.py:192-230`, `features_space.py:43-64`, `configuration_space.rb:195-229`, `features_space.rb:68-85`) and the seeds given to `Rng`
(`rng.py:28-33`, `rng.rb:29-32`).  An object of the bindings is what its handle names.  Getting and setting the values of a binding is in
`Model/BoundValues`, comparing in `Model/BoundOrder`.
-/

namespace CCS.BoundConfig

open CCS CCS.BoundInterval CCS.BoundTree

section
variable {α : Type} (t : Tongue α) (ops : FloatOps) (jen : Bytes → BitVec 32) (little : Bool)

/-- `Configuration.__init__`, `bindings/python/cconfigspace/configuration.py:13-30`, and `Features.__init__`, `features.py:13-30`;
`Configuration#initialize`, `bindings/ruby/lib/cconfigspace/configuration.rb:9-28`, and `Features#initialize`, `features.rb:10-30`.  `space` is the
address of the space with contents `c`; `none` is an argument `values` not given.  The list of values is sent as that of an evaluation is. -/
def create (space : BitVec 64) (c : Ctx) (values : Option (List α)) : Out Binding := do
  let ds ← BoundEval.valuesSent t values
  createBinding jen little space c ds

/-- `Binding.values`, `bindings/python/cconfigspace/binding.py:61-69`, `bindings/ruby/lib/cconfigspace/binding.rb:55-61`.  Simplification: no objects
among the values, so that flags do not count. -/
def values (b : Binding) : Out (List α) := takeAll t (b.values.map Datum.v)

/-- `ConfigurationSpace.check`, `configuration_space.py:192-196`, `configuration_space.rb:195-199`, of the space `s` at the address `space`
(`ccs_configuration_space_check_configuration`, `src/configuration_space.c:962-979`).  `Configuration.check`, `configuration.py:47-51`,
`configuration.rb:34-38`, asks the space of the configuration (`ccs_configuration_check`, `src/configuration.c:204-214`). -/
def check (space : BitVec 64) (s : Space) (b : Binding) : Space × Out Bool :=
  if b.context ≠ space then (s, .err .invalidConfiguration) else checkSpace ops jen little s (b.values.map Datum.v)

/-- `ConfigurationSpace.check_values`, `configuration_space.py:198-209`, `configuration_space.rb:201-210`
(`ccs_configuration_space_check_configuration_values`, `src/configuration_space.c:981-995`). -/
def checkValues (s : Space) (vs : List α) : Space × Out Bool :=
  if vs.length ≠ s.params.length then (s, .err .invalidValue)
  else match BoundEval.giveAll t vs with
    | .ok ds => checkSpace ops jen little s (ds.map Datum.v)
    | .err e => (s, .err e)
    | .ub => (s, .ub)

/-- `FeaturesSpace.check_values`, `features_space.py:53-64`, `features_space.rb:76-85`. -/
def checkFeatureValues (c : Ctx) (vs : List α) : Out Bool :=
  if vs.length ≠ c.params.length then .err .invalidValue
  else do
    let ds ← BoundEval.giveAll t vs
    checkFeaturesValues jen little typeFeaturesSpace c ds

/-- A configuration made by the library: the flags of its datums are not set. -/
def made (space : BitVec 64) (vals : List Value) : Binding := ⟨space, vals.map fun v => { v := v }⟩

/-- `ConfigurationSpace.default_configuration`, `configuration_space.py:211-216`, `configuration_space.rb:212-216`
(`src/configuration_space.c:860-888`). -/
def defaultOf (space : BitVec 64) (s : Space) : Out Binding := do
  let vals ← getDefault ops jen little s
  .ok (made space vals)

/-- `ConfigurationSpace.sample`, `configuration_space.py:218-222`, `configuration_space.rb:218-222`. -/
def sample (space : BitVec 64) (s : Space) (time : Nat) : Space × Out Binding :=
  match sampleOne ops jen little s time with
  | (s', .ok vals) => (s', .ok (made space vals))
  | (s', .err e) => (s', .err e)
  | (s', .ub) => (s', .ub)

/-- `ConfigurationSpace.samples`, `configuration_space.py:224-230`, `configuration_space.rb:224-229`: the space, the configurations that the library
made and no object of the program holds, and the answer.  When the library reports an error the objects are not made, although the configurations
found so far are in the array (`src/configuration_space.c:1081-1122`).  `none` is a NULL pointer in the array. -/
def samples (space : BitVec 64) (s : Space) (time : Nat) (count : Int) : Space × List Binding × Out (List (Option Binding)) :=
  if count = 0 then (s, [], .ok [])
  else match BoundTuner.ask ops jen little s time count with
    | (s', lost, .ok xs) => (s', lost.map (made space), .ok (xs.map (Option.map (made space))))
    | (s', lost, .err e) => (s', lost.map (made space), .err e)
    | (s', lost, .ub) => (s', lost.map (made space), .ub)

end

/-- `rng.seed = i`, `bindings/python/cconfigspace/rng.py:28-33` (`c_ulong`, `:6`), and `bindings/ruby/lib/cconfigspace/rng.rb:29-32` (`:ulong`, `:4`):
the seed that `ccs_rng_set_seed`, `src/rng.c:145-151`, is given.  An `unsigned long` has 64 bits, as a `size_t`. -/
def seedGiven (lang : Lang) (i : Int) : Out Nat := sizeGiven lang i

end CCS.BoundConfig
