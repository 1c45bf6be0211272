/-
Configuration spaces described and questioned from Python and Ruby, `bindings/python/cconfigspace/configuration_space.py` and
`bindings/ruby/lib/cconfigspace/configuration_space.rb`, on top of the library (`Model/Space`, `Model/Getters`).

Parameters are named by the objects, by their names, or by positions, as in `Model/BoundValues`.

Simplifications: expressions are given as objects (texts are the subject of C126), the objects of the bindings that stand for expressions,
distributions and parameters are represented by what they stand for, and exceptions of the languages by the code EXTERNAL.
-/
import Verif.Model.BoundValues
import Verif.Model.Getters

namespace CCS

/-- `ccs_configuration_space_add_parameters`, `src/configuration_space.c:715-732`: the parameters before a refused one stay. -/
def addParameterList (mem : BitVec 64 → Param) (mk : Nat → Param → Out Dist) (s : Space) :
    List (BitVec 64 × Option Dist) → Space × Out Unit
  | [] => (s, .ok ())
  | (h, d) :: rest =>
    match addParameter mem mk s h d with
    | (s', .ok ()) => addParameterList mem mk s' rest
    | r => r

/-- A call made with what another one gave, if it succeeded: nothing happens to the space otherwise. -/
def withOut {α : Type} (s : Space) (x : Out α) (f : α → Space × Out Unit) : Space × Out Unit :=
  match x with
  | .ok a => f a
  | .err e => (s, .err e)
  | .ub => (s, .ub)

/-- The elements whose mark is the one wanted, `zip` and a filter. -/
def marked {α β : Type} (wanted : Bool) (xs : List α) (marks : List (Option β)) : List α :=
  ((xs.zip marks).filter fun x => x.2.isSome == wanted).map (·.1)

end CCS

namespace CCS.Py

/-- The position a program means: `Context.parameter_index` and `parameter_index_by_name`, `bindings/python/cconfigspace/context.py:39-49`,
and `c_size_t` for the others. -/
def positionOf (s : Space) : Key → Out Nat
  | .parameter h => s.getIndex h
  | .name n => s.getIndexByName (n.takeWhile (· ≠ 0#8))
  | .position i => .ok (BitVec.ofInt 64 i).toNat
  | .other => .err .external

/-- The loop of `bindings/python/cconfigspace/configuration_space.py:83-89`. -/
def positionsOf (s : Space) : List Key → Out (List Nat)
  | [] => .ok []
  | k :: ks => positionOf s k >>= fun i => positionsOf s ks >>= fun is => .ok (i :: is)

/-- `ConfigurationSpace.set_distribution`, `bindings/python/cconfigspace/configuration_space.py:78-92`. -/
def setDistribution (mk : Nat → Param → Out Dist) (s : Space) (d : Dist) (ks : List Key) : Space × Out Unit :=
  if d.dim ≠ ks.length then (s, .err .invalidValue)
  else withOut s (positionsOf s ks) fun is => CCS.setDistribution mk s d is

/-- `ConfigurationSpace.get_parameter_distribution`, `bindings/python/cconfigspace/configuration_space.py:94-103`. -/
def distributionOf (s : Space) (k : Key) : Out (Dist × Nat) := positionOf s k >>= s.getParameterDistribution

/-- `ConfigurationSpace.set_condition`, `bindings/python/cconfigspace/configuration_space.py:105-113`. -/
def setCondition (s : Space) (k : Key) (e : Expr) : Space × Out Unit :=
  withOut s (positionOf s k) fun i => CCS.setCondition s i e

/-- `ConfigurationSpace.condition`, `bindings/python/cconfigspace/configuration_space.py:115-126`. -/
def condition (s : Space) (k : Key) : Out (Option Expr) := positionOf s k >>= s.getCondition

/-- `ConfigurationSpace.conditions`, `bindings/python/cconfigspace/configuration_space.py:132-140`. -/
def conditionsOf (s : Space) : Out (List (Option Expr)) :=
  if s.params.length = 0 then .ok []
  else s.getConditions ⟨s.params.length, some (List.replicate s.params.length none), false⟩ >>= fun r => .ok (r.1.getD [])

/-- `Context.parameters`, `bindings/python/cconfigspace/context.py:58-66`. -/
def spaceParameters (s : Space) : Out (List (BitVec 64)) :=
  if s.params.length = 0 then .ok []
  else s.getParameters (some s.params.length) >>= fun r => .ok (r.1.getD [])

/-- `ConfigurationSpace.conditional_parameters` and `unconditional_parameters`,
`bindings/python/cconfigspace/configuration_space.py:142-152`. -/
def parametersWith (wanted : Bool) (s : Space) : Out (List (BitVec 64)) :=
  spaceParameters s >>= fun hs => conditionsOf s >>= fun cs => .ok (marked wanted hs cs)

/-- `ConfigurationSpace.add_parameters`, `bindings/python/cconfigspace/configuration_space.py:64-76`: an empty list of distributions is taken
for no list. -/
def addParameters (mem : BitVec 64 → Param) (mk : Nat → Param → Out Dist) (s : Space) (hs : List (BitVec 64))
    (ds : Option (List (Option Dist))) : Space × Out Unit :=
  if hs.length = 0 then (s, .ok ())
  else match ds with
    | none => addParameterList mem mk s (hs.map fun h => (h, none))
    | some [] => addParameterList mem mk s (hs.map fun h => (h, none))
    | some ds => if hs.length ≠ ds.length then (s, .err .invalidValue) else addParameterList mem mk s (hs.zip ds)

/-- `ConfigurationSpace.forbidden_clauses`, `bindings/python/cconfigspace/configuration_space.py:175-190`: the count is asked for first. -/
def clausesOf (s : Space) : Out (List (Option Expr)) :=
  s.getForbiddenClauses ⟨0, none, true⟩ >>= fun c =>
    let n := c.2.getD 0
    if n = 0 then .ok []
    else s.getForbiddenClauses ⟨n, some (List.replicate n none), false⟩ >>= fun r => .ok (r.1.getD [])

end CCS.Py

namespace CCS.Rb

/-- The position a program means: `Context#parameter_index` and `parameter_index_by_name`,
`bindings/ruby/lib/cconfigspace/context.rb:36-47`, and `:size_t` for the others. -/
def positionOf (s : Space) : Key → Out Nat
  | .parameter h => s.getIndex h
  | .name n => cText n >>= s.getIndexByName
  | .symbol n => cText n >>= s.getIndexByName
  | .position i => .ok i.toNat
  | .other => .err .external

/-- The block of `bindings/ruby/lib/cconfigspace/configuration_space.rb:58-67`: for a name, `parameter` is not defined (the variable of the
block is `h`), and a `NameError` is raised. -/
def listedPosition (s : Space) : Key → Out Nat
  | .parameter h => s.getIndex h
  | .name _ => .err .external
  | .symbol _ => .err .external
  | .position i => .ok i.toNat
  | .other => .err .external

/-- `collect` with that block. -/
def positionsOf (s : Space) : List Key → Out (List Nat)
  | [] => .ok []
  | k :: ks => listedPosition s k >>= fun i => positionsOf s ks >>= fun is => .ok (i :: is)

/-- `ConfigurationSpace#set_distribution`, `bindings/ruby/lib/cconfigspace/configuration_space.rb:55-72`. -/
def setDistribution (mk : Nat → Param → Out Dist) (s : Space) (d : Dist) (ks : List Key) : Space × Out Unit :=
  if d.dim ≠ ks.length then (s, .err .invalidValue)
  else withOut s (positionsOf s ks) fun is => CCS.setDistribution mk s d is

/-- `ConfigurationSpace#get_parameter_distribution`, `bindings/ruby/lib/cconfigspace/configuration_space.rb:74-85`. -/
def distributionOf (s : Space) (k : Key) : Out (Dist × Nat) := positionOf s k >>= s.getParameterDistribution

/-- `ConfigurationSpace#set_condition`, `bindings/ruby/lib/cconfigspace/configuration_space.rb:103-115`. -/
def setCondition (s : Space) (k : Key) (e : Expr) : Space × Out Unit :=
  withOut s (positionOf s k) fun i => CCS.setCondition s i e

/-- `ConfigurationSpace#condition`, `bindings/ruby/lib/cconfigspace/configuration_space.rb:117-128`. -/
def condition (s : Space) (k : Key) : Out (Option Expr) := positionOf s k >>= s.getCondition

/-- `ConfigurationSpace#conditions`, `bindings/ruby/lib/cconfigspace/configuration_space.rb:130-137`. -/
def conditionsOf (s : Space) : Out (List (Option Expr)) :=
  s.getConditions ⟨s.params.length, some (List.replicate s.params.length none), false⟩ >>= fun r => .ok (r.1.getD [])

/-- `Context#parameters`, `bindings/ruby/lib/cconfigspace/context.rb:49-55`. -/
def spaceParameters (s : Space) : Out (List (BitVec 64)) :=
  if s.params.length = 0 then .ok []
  else s.getParameters (some s.params.length) >>= fun r => .ok (r.1.getD [])

/-- `ConfigurationSpace#conditional_parameters` and `unconditional_parameters`,
`bindings/ruby/lib/cconfigspace/configuration_space.rb:139-149`. -/
def parametersWith (wanted : Bool) (s : Space) : Out (List (BitVec 64)) :=
  spaceParameters s >>= fun hs => conditionsOf s >>= fun cs => .ok (marked wanted hs cs)

/-- `ConfigurationSpace#add_parameters`, `bindings/ruby/lib/cconfigspace/configuration_space.rb:87-101`: `nil` has no `handle`. -/
def addParameters (mem : BitVec 64 → Param) (mk : Nat → Param → Out Dist) (s : Space) (hs : List (BitVec 64))
    (ds : Option (List (Option Dist))) : Space × Out Unit :=
  if hs.length = 0 then (s, .ok ())
  else match ds with
    | none => addParameterList mem mk s (hs.map fun h => (h, none))
    | some ds =>
      if hs.length ≠ ds.length then (s, .err .invalidValue)
      else if ds.any (·.isNone) then (s, .err .external)
      else addParameterList mem mk s (hs.zip ds)

/-- `ConfigurationSpace#forbidden_clauses`, `bindings/ruby/lib/cconfigspace/configuration_space.rb:182-193`. -/
def clausesOf (s : Space) : Out (List (Option Expr)) :=
  s.getForbiddenClauses ⟨0, none, true⟩ >>= fun c =>
    let n := c.2.getD 0
    s.getForbiddenClauses ⟨n, some (List.replicate n none), false⟩ >>= fun r => .ok (r.1.getD [])

end CCS.Rb
