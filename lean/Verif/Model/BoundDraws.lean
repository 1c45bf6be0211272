/-
Distributions used from Python and Ruby: class `Distribution` of `bindings/python/cconfigspace/distribution.py` and of
`bindings/ruby/lib/cconfigspace/distribution.rb`.

What the bindings ask of `ctypes` and FFI is modelled after what these do: arrays are new and zeroed; an array of arrays given where
`POINTER(Numeric)` is declared raises an exception (`ctypes.ArgumentError`) before the call.  Exceptions of Python and Ruby are
`.err .external`.

Simplifications: the handles given are those of a distribution and a generator; the memory around an array is not part of the model, so
that a write or a read past its end is `.ub`.
-/
import Verif.Model.Distribution

namespace CCS

/-- A number of Python or Ruby. -/
inductive Num where
  | int (i : Int)
  | float (x : F64)
  deriving DecidableEq

/-- What `sample` returns: a number, or a list of them. -/
inductive Draw where
  | one (x : Num)
  | many (xs : List Num)
  deriving DecidableEq

/-- `v.i` or `v.f`, `bindings/python/cconfigspace/distribution.py:99-108`, `ptr.read_ccs_int_t` or `ptr.read_ccs_float_t`,
`bindings/ruby/lib/cconfigspace/distribution.rb:84-88`. -/
def Num.read : NumType → BitVec 64 → Num
  | .int, v => .int v.toInt
  | .float, v => .float v

/-- A new array for the library to fill. -/
def freshStore {σ : Type} (g : σ) : Store σ := ⟨g, fun _ => 0#64⟩

/-- One number for each data type, from a position of an array on, `bindings/python/cconfigspace/distribution.py:108`,
`bindings/ruby/lib/cconfigspace/distribution.rb:90-96`.  `data_types` has as many elements as the dimension in both languages
(`distribution.py:58-65`, `distribution.rb:57-63`). -/
def readRow (mem : Nat → BitVec 64) : List NumType → Nat → List Num
  | [], _ => []
  | t :: ts, a => Num.read t (mem a) :: readRow mem ts (a + 1)

/-- What a binding makes of the array that a call filled. -/
def shownOf {σ α : Type} (f : (Nat → BitVec 64) → Out α) : Option (Out (Store σ)) → Option (Out (α × σ))
  | none => none
  | some .ub => some .ub
  | some (.err e) => some (.err e)
  | some (.ok s) => some (f s.mem >>= fun x => .ok (x, s.rng))

/-- The samples of a distribution of dimension `dim`, from sample `j` on. -/
def readRows (dim : Nat) (types : List NumType) (mem : Nat → BitVec 64) : (todo j : Nat) → List Draw
  | 0, _ => []
  | n + 1, j => .many (readRow mem types (j * dim)) :: readRows dim types mem n (j + 1)

/-- The samples of a distribution of dimension 1, `list(v)` (`bindings/python/cconfigspace/distribution.py:123`),
`ptr.read_array_of_ccs_int_t(count)` (`bindings/ruby/lib/cconfigspace/distribution.rb:107-111`), from sample `j` on. -/
def readColumn (t : NumType) (mem : Nat → BitVec 64) : (todo j : Nat) → List Draw
  | 0, _ => []
  | n + 1, j => .one (Num.read t (mem j)) :: readColumn t mem n (j + 1)

/-- Intervals written one after the other to an array, from position `i` on: `get_bounds` of the distributions,
`src/distribution_multivariate.c:277-286`, `src/distribution_mixture.c:347-357`. -/
def storeIntervals : (array : List Interval) → List Interval → (i : Nat) → Out (List Interval)
  | array, [], _ => .ok array
  | array, b :: bs, i => if i < array.length then storeIntervals (array.set i b) bs (i + 1) else .ub

/-- The loop of `ccs_distribution_check_oversampling`, `src/distribution.c:77-88`, on arrays of intervals and of results that have
as many elements as `ivs`: the interval of the next dimension is read, and its result is written, past their end. -/
def oversamplingLoop : (bounds ivs : List Interval) → Out (List Bool)
  | [], _ => .ok []
  | _ :: _, [] => .ub
  | b :: bs, iv :: ivs => do
    let o ← checkOversampling b iv
    let os ← oversamplingLoop bs ivs
    .ok (o :: os)

namespace Py

variable {σ : Type}

/-- `Distribution.sample`, `bindings/python/cconfigspace/distribution.py:94-108`. -/
def sample (d : Sampler σ) (g : σ) : Option (Out (Draw × σ)) :=
  shownOf (fun mem => if d.dim = 1 then
      match d.types with
      | t :: _ => .ok (.one (Num.read t (mem 0)))
      | [] => .err .external
    else .ok (.many (readRow mem d.types 0))) (d.sample 0 (freshStore g))

/-- `Distribution.samples`, `bindings/python/cconfigspace/distribution.py:110-128`: the array made for several dimensions,
`(Numeric*dim*count)()`, is an array of arrays. -/
def samples (d : Sampler σ) (count : Nat) (g : σ) : Option (Out (List Draw × σ)) :=
  if count = 0 then some (.ok ([], g))
  else if d.dim = 1 then
    match d.types with
    | t :: _ => shownOf (fun mem => .ok (readColumn t mem count 0)) (d.callSamples count (some 0) (freshStore g))
    | [] => some (.err .external)
  else some (.err .external)

/-- The `Interval()` of `bindings/python/cconfigspace/distribution.py:82`, with the default bounds of
`bindings/python/cconfigspace/interval.py:12`. -/
def newInterval : Interval := ⟨.float, F64.zero, F64.one, 1#32, 0#32⟩

/-- `Distribution.bounds`, `bindings/python/cconfigspace/distribution.py:78-86`. -/
def bounds (d : Sampler σ) : Out Interval := do
  let a ← storeIntervals [newInterval] d.bounds 0
  .ok (a.headD newInterval)

/-- `Distribution.is_oversampling`, `bindings/python/cconfigspace/distribution.py:88-92`. -/
def isOversampling (d : Sampler σ) (iv : Interval) : Out Bool := do
  let os ← oversamplingLoop d.bounds [iv]
  .ok (os.headD false)

end Py

namespace Rb

variable {σ : Type}

/-- `Distribution#sample`, `bindings/ruby/lib/cconfigspace/distribution.rb:79-98`. -/
def sample (d : Sampler σ) (g : σ) : Option (Out (Draw × σ)) :=
  shownOf (fun mem => if d.dim = 1 then
      .ok (.one (Num.read (match d.types with | .float :: _ => .float | _ => .int) (mem 0)))
    else .ok (.many (readRow mem d.types 0))) (d.sample 0 (freshStore g))

/-- `Distribution#samples`, `bindings/ruby/lib/cconfigspace/distribution.rb:100-125`. -/
def samples (d : Sampler σ) (count : Nat) (g : σ) : Option (Out (List Draw × σ)) :=
  if count = 0 then some (.ok ([], g))
  else shownOf (fun mem => if d.dim = 1 then
      .ok (readColumn (match d.types with | .float :: _ => .float | _ => .int) mem count 0)
    else .ok (readRows d.dim d.types mem count 0)) (d.callSamples count (some 0) (freshStore g))

/-- The `Interval::new(type: :CCS_NUMERIC_TYPE_FLOAT)` of `bindings/ruby/lib/cconfigspace/distribution.rb:67`, with the default bounds
of `bindings/ruby/lib/cconfigspace/interval.rb:9-30`. -/
def newInterval : Interval := ⟨.float, 0#64, 0#64, 1#32, 0#32⟩

/-- `Distribution#bounds`, `bindings/ruby/lib/cconfigspace/distribution.rb:65-71`. -/
def bounds (d : Sampler σ) : Out Interval := do
  let a ← storeIntervals [newInterval] d.bounds 0
  .ok (a.headD newInterval)

/-- `Distribution#oversampling?`, `bindings/ruby/lib/cconfigspace/distribution.rb:73-77`. -/
def isOversampling (d : Sampler σ) (iv : Interval) : Out Bool := do
  let os ← oversamplingLoop d.bounds [iv]
  .ok (os.headD false)

end Rb

end CCS
