import Verif.Model.Datum

/-!
# Intervals

Models `src/interval.c` and `_ccs_interval_include` (`src/cconfigspace_internal.h:8-26`).
-/

namespace CCS

/-- `ccs_numeric_type_t` restricted to its two values: `CCS_NUMERIC_TYPE_INT` = 1,
`CCS_NUMERIC_TYPE_FLOAT` = 2 (`include/cconfigspace/base.h`).  Anything that is not FLOAT is
treated as INT by the interval functions, except `ccs_interval_empty` which tests INT. -/
inductive NumType
  | int
  | float
  deriving DecidableEq, Repr

/-- `ccs_interval_t`, `include/cconfigspace/interval.h`: the bounds are 8-byte unions and the
inclusion flags are `ccs_bool_t` (any non-zero value is true). -/
structure Interval where
  type : NumType
  lower : BitVec 64
  upper : BitVec 64
  lowerIncl : BitVec 32
  upperIncl : BitVec 32
  deriving DecidableEq, Repr

/-- C truth value of a `ccs_bool_t`. -/
def truthy (b : BitVec 32) : Bool := decide (b ≠ 0#32)

/-- `a < b` on the numeric union, by type. -/
def NumType.lt : NumType → BitVec 64 → BitVec 64 → Bool
  | .int, a, b => decide (a.toInt < b.toInt)
  | .float, a, b => F64.lt a b

/-- `a <= b` on the numeric union, by type. -/
def NumType.le : NumType → BitVec 64 → BitVec 64 → Bool
  | .int, a, b => decide (a.toInt ≤ b.toInt)
  | .float, a, b => F64.le a b

/-- `_ccs_interval_include`, `src/cconfigspace_internal.h:8-26`, and `ccs_interval_include`,
`src/interval.c:172-178`, on a non-NULL interval.  (`upper >= v` is `v <= upper`.) -/
def Interval.include (iv : Interval) (v : BitVec 64) : Bool :=
  (if truthy iv.lowerIncl then iv.type.le iv.lower v else iv.type.lt iv.lower v) &&
  (if truthy iv.upperIncl then iv.type.le v iv.upper else iv.type.lt v iv.upper)

/-- `ccs_interval_empty`, `src/interval.c:3-26`, non-NULL arguments. -/
def Interval.empty (iv : Interval) : Bool :=
  if truthy iv.upperIncl && truthy iv.lowerIncl then iv.type.lt iv.upper iv.lower
  else iv.type.le iv.upper iv.lower

/-- `MERGE_MAX`, `src/interval.c:27-44`. -/
def mergeMax (t : NumType) (l1 : BitVec 64) (li1 : BitVec 32) (l2 : BitVec 64) (li2 : BitVec 32) :
    BitVec 64 × BitVec 32 :=
  if t.lt l2 l1 then (l1, li1)
  else if t.lt l1 l2 then (l2, li2)
  else if truthy li1 then (l2, li2) else (l1, li1)

/-- `MERGE_MIN`, `src/interval.c:46-63`. -/
def mergeMin (t : NumType) (l1 : BitVec 64) (li1 : BitVec 32) (l2 : BitVec 64) (li2 : BitVec 32) :
    BitVec 64 × BitVec 32 :=
  if t.lt l1 l2 then (l1, li1)
  else if t.lt l2 l1 then (l2, li2)
  else if truthy li1 then (l2, li2) else (l1, li1)

/-- `ccs_interval_intersect`, `src/interval.c:65-99`, non-NULL arguments. -/
def Interval.intersect (a b : Interval) : Out Interval :=
  if a.type ≠ b.type then .err .invalidType
  else
    let l := mergeMax a.type a.lower a.lowerIncl b.lower b.lowerIncl
    let u := mergeMin a.type a.upper a.upperIncl b.upper b.upperIncl
    .ok ⟨a.type, l.1, u.1, l.2, u.2⟩

/-- `ccs_interval_union`, `src/interval.c:101-135`, non-NULL arguments. -/
def Interval.union (a b : Interval) : Out Interval :=
  if a.type ≠ b.type then .err .invalidType
  else
    let l := mergeMin a.type a.lower a.lowerIncl b.lower b.lowerIncl
    let u := mergeMax a.type a.upper a.upperIncl b.upper b.upperIncl
    .ok ⟨a.type, l.1, u.1, l.2, u.2⟩

/-- Signed 64-bit `x + 1`: overflow is undefined behaviour. -/
def incr64 (x : BitVec 64) : Out (BitVec 64) :=
  if x.toInt = 2 ^ 63 - 1 then .ub else .ok (x + 1#64)

/-- Signed 64-bit `x - 1`: overflow is undefined behaviour. -/
def decr64 (x : BitVec 64) : Out (BitVec 64) :=
  if x.toInt = -2 ^ 63 then .ub else .ok (x - 1#64)

/-- The lower bound made inclusive, `src/interval.c:159-160,163-164`. -/
def Interval.closedLower (iv : Interval) : Out (BitVec 64) :=
  if truthy iv.lowerIncl then .ok iv.lower else incr64 iv.lower

/-- The upper bound made inclusive, `src/interval.c:161-162,165-166`. -/
def Interval.closedUpper (iv : Interval) : Out (BitVec 64) :=
  if truthy iv.upperIncl then .ok iv.upper else decr64 iv.upper

/-- `ccs_interval_equal`, `src/interval.c:137-170`, non-NULL arguments. -/
def Interval.equal (a b : Interval) : Out Bool :=
  if a.type ≠ b.type then .err .invalidType
  else match a.type with
    | .float => .ok (F64.feq a.lower b.lower && F64.feq a.upper b.upper &&
        decide (a.lowerIncl = b.lowerIncl) && decide (a.upperIncl = b.upperIncl))
    | .int => do
      let l1 ← a.closedLower
      let u1 ← a.closedUpper
      let l2 ← b.closedLower
      let u2 ← b.closedUpper
      .ok (decide (l1 = l2) && decide (u1 = u2))

/-- One dimension of `ccs_distribution_check_oversampling`, `src/distribution.c:78-87`: compare the
bounds `d` of the distribution with their intersection with the domain `iv`. -/
def checkOversampling (d iv : Interval) : Out Bool := do
  let inter ← d.intersect iv
  let eql ← d.equal inter
  .ok (!eql)

/-- `ccs_distribution_check_oversampling`, `src/distribution.c:61-89`: all dimensions in order. -/
def checkOversamplings : List Interval → List Interval → Out (List Bool)
  | d :: ds, iv :: ivs => do
    let o ← checkOversampling d iv
    let os ← checkOversamplings ds ivs
    .ok (o :: os)
  | _, _ => .ok []

end CCS
