/-!
# Outcomes, error codes, bytes and doubles

Shared vocabulary of the model.
-/

namespace CCS

/-- Result codes, `include/cconfigspace/base.h` (enum `ccs_result_e`).  Only the error codes
that the modelled functions can produce are listed; `CCS_RESULT_SUCCESS` is `Out.ok`. -/
inductive Err
  | invalidObject | invalidValue | invalidType | invalidScale | invalidDistribution
  | invalidExpression | invalidParameter | invalidConfiguration | invalidName
  | invalidCondition | invalidTuner | invalidGraph | typeNotComparable | invalidBounds
  | outOfBounds | samplingUnsuccessful | outOfMemory | unsupportedOperation
  | invalidEvaluation | invalidFeatures | invalidFeaturesTuner | invalidFilePath
  | notEnoughData | duplicateHandle | invalidHandle | system | external
  | invalidTree | invalidTreeSpace | invalidTreeTuner
  deriving DecidableEq, Repr

/-- Outcome of a C call: success with a result, an error code, or undefined behaviour.
`CCS_VALIDATE` (`src/cconfigspace_internal.h:131-144`) is monadic bind. -/
inductive Out (α : Type u) : Type u
  | ok (a : α)
  | err (e : Err)
  | ub
  deriving DecidableEq, Repr

namespace Out

/-- `CCS_VALIDATE(cmd)`, `src/cconfigspace_internal.h:131-144`: propagate any error. -/
@[inline] def bind (x : Out α) (f : α → Out β) : Out β :=
  match x with
  | ok a => f a
  | err e => err e
  | ub => ub

instance : Monad Out where
  pure := Out.ok
  bind := Out.bind

@[simp] theorem bind_ok (a : α) (f : α → Out β) : (Out.ok a >>= f) = f a := rfl
@[simp] theorem bind_err (e : Err) (f : α → Out β) : (Out.err e >>= f) = Out.err e := rfl
@[simp] theorem bind_ub (f : α → Out β) : ((Out.ub : Out α) >>= f) = Out.ub := rfl
@[simp] theorem pure_eq (a : α) : (pure a : Out α) = Out.ok a := rfl
@[simp] theorem map_ok (f : α → β) (a : α) : (f <$> Out.ok a) = Out.ok (f a) := rfl
@[simp] theorem map_err (f : α → β) (e : Err) : (f <$> (Out.err e : Out α)) = Out.err e := rfl
@[simp] theorem map_ub (f : α → β) : (f <$> (Out.ub : Out α)) = Out.ub := rfl

theorem bind_assoc (x : Out α) (f : α → Out β) (g : β → Out γ) :
    (x >>= f >>= g) = (x >>= fun a => f a >>= g) := by
  cases x <;> rfl

/-- Boolean test used in witnesses. -/
def isOk : Out α → Bool
  | ok _ => true
  | _ => false

end Out

/-- `CCS_REFUTE(cond, error)`, `src/cconfigspace_internal.h:113-116`. -/
@[inline] def refute (c : Prop) [Decidable c] (e : Err) : Out Unit :=
  if c then Out.err e else Out.ok ()

@[simp] theorem refute_true {c : Prop} [Decidable c] (h : c) (e : Err) :
    refute c e = Out.err e := by simp [refute, h]

@[simp] theorem refute_false {c : Prop} [Decidable c] (h : ¬ c) (e : Err) :
    refute c e = Out.ok () := by simp [refute, h]

/-- Outcome of a call that changes state: the result code (`none` for `CCS_RESULT_SUCCESS`) with the
state it leaves, also when it fails; or undefined behaviour. -/
inductive Call (σ : Type u) : Type u
  | ret (code : Option Err) (s : σ)
  | ub
  deriving DecidableEq, Repr

namespace Call

/-- Continue according to the result code (`CCS_VALIDATE_ERR_GOTO`,
`src/cconfigspace_internal.h:131-144`). -/
def next (c : Call σ) (ok : σ → Call τ) (bad : Err → σ → Call τ) : Call τ :=
  match c with
  | ret Option.none s => ok s
  | ret (Option.some e) s => bad e s
  | ub => ub

@[simp] theorem next_ok (s : σ) (f : σ → Call τ) (g : Err → σ → Call τ) :
    (ret Option.none s).next f g = f s := rfl
@[simp] theorem next_err (e : Err) (s : σ) (f : σ → Call τ) (g : Err → σ → Call τ) :
    (ret (Option.some e) s).next f g = g e s := rfl
@[simp] theorem next_ub (f : σ → Call τ) (g : Err → σ → Call τ) :
    (ub : Call σ).next f g = ub := rfl

/-- Run a sequence of calls, each from the state left by the previous one, recording the result
codes; `none` if one of them is undefined. -/
def run (step : σ → ι → Call σ) (s : σ) : List ι → Option (List (Option Err) × σ)
  | [] => some ([], s)
  | i :: is =>
    match step s i with
    | ret c s' =>
      match run step s' is with
      | some (cs, s'') => some (c :: cs, s'')
      | Option.none => Option.none
    | ub => Option.none

end Call

abbrev Byte := BitVec 8
abbrev Bytes := List Byte

/-- A double is represented by its IEEE-754 binary64 bit pattern. -/
abbrev F64 := BitVec 64

namespace F64

/-- `isnan`: exponent all ones and non-zero mantissa. -/
def isNaN (x : F64) : Bool := decide (0x7ff0000000000000 < x.toNat % 2 ^ 63)

/-- Order key of a non-NaN double: sign and magnitude.  On non-NaN patterns IEEE `<` is `<` on
keys, and `0.0`, `-0.0` share the key `0`. -/
def key (x : F64) : Int :=
  if 2 ^ 63 ≤ x.toNat then -((x.toNat % 2 ^ 63 : Nat) : Int) else ((x.toNat % 2 ^ 63 : Nat) : Int)

/-- C `a < b` on doubles. -/
def lt (a b : F64) : Bool := !isNaN a && !isNaN b && decide (key a < key b)

/-- C `a <= b` on doubles. -/
def le (a b : F64) : Bool := !isNaN a && !isNaN b && decide (key a ≤ key b)

/-- C `a == b` on doubles. -/
def feq (a b : F64) : Bool := !isNaN a && !isNaN b && decide (key a = key b)

end F64

end CCS
