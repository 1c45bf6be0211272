import Verif.Model.BoundEval
import Verif.Model.BoundTuner
import Verif.Model.BoundValues

/-!
# Parameters from Python and Ruby

`bindings/python/cconfigspace/parameter.py` and `bindings/ruby/lib/cconfigspace/parameter.rb`, on top of `Model/Param`.

What FFI and `ctypes` do is that of `BoundInterval`, `BoundTree` and `BoundValues`: a `c_char_p` ends at the first NUL, a `:string` with a NUL is
refused; `read_string` gives a string whose encoding is binary.

Simplifications: exceptions of the languages are the code EXTERNAL; names read from Python are valid UTF-8; which symbols Ruby's `inspect` writes
without quotes, and what it writes between quotes for the others, are parameters (`simple`, `quote`); counters of names are natural numbers.
-/

namespace CCS.BoundParam

open CCS CCS.BoundInterval CCS.BoundTree

/-- A name as a program has it: a string, or, in Ruby, a symbol, with its bytes, and whether its encoding is binary or UTF-8 (Ruby only). -/
inductive Name
  | text (s : Bytes) (binary : Bool)
  | symbol (s : Bytes) (binary : Bool)
  deriving DecidableEq, Repr

/-- `Symbol#inspect`: a colon and the symbol, between quotes unless it is simple. -/
def inspect (simple : Bytes → Bool) (quote : Bytes → Bytes) (s : Bytes) : Bytes :=
  if simple s then 58#8 :: s else 58#8 :: 34#8 :: (quote s ++ [34#8])

/-- The name the library is given: `str.encode(name)`, `parameter.py:222`, `:239`, `:262`, `:296`, `:339` and `:366`, and
`name = name.inspect if name.kind_of?(Symbol)`, `parameter.rb:147`, `:163`, `:232`, `:267`, `:309` and `:337`. -/
def nameGiven (simple : Bytes → Bool) (quote : Bytes → Bytes) (lang : Lang) : Name → Out Bytes
  | .text s _ =>
    match lang with
    | .python => .ok (s.takeWhile (· ≠ 0#8))
    | .ruby => Rb.cText s
  | .symbol s _ =>
    match lang with
    | .python => .err .external
    | .ruby => Rb.cText (inspect simple quote s)

/-- `r.sub(/^:/, "") if r.match(/^:/)`, `parameter.rb:64`: the string without the first colon at the beginning of a line; `none` if there is none.
The Boolean says whether a line begins. -/
def uncolon : Bool → Bytes → Option Bytes
  | _, [] => none
  | begins, c :: cs =>
    if begins = true ∧ c = 58#8 then some cs
    else (uncolon (decide (c = 10#8)) cs).map (c :: ·)

/-- `Parameter.name`, `parameter.py:61-69`, `parameter.rb:60-68`. -/
def name (lang : Lang) (p : Param) : Name :=
  match lang with
  | .python => .text p.name false
  | .ruby =>
    match uncolon true p.name with
    | some s => .symbol s true
    | none => .text p.name true

/-- An integer in decimal, `%d`. -/
def decimal (n : Nat) : Bytes :=
  if n < 10 then [BitVec.ofNat 8 (48 + n)] else decimal (n / 10) ++ [BitVec.ofNat 8 (48 + n % 10)]
termination_by n

/-- `"param%03d" % id`, `parameter.py:47-49`, `parameter.rb:37-39`. -/
def defaultName (id : Nat) : Name :=
  .text ([112#8, 97#8, 114#8, 97#8, 109#8] ++ (List.replicate (3 - (decimal id).length) 48#8 ++ decimal id)) false

/-- The names that parameters created without a name get, one after the other: `_ccs_get_id`, `bindings/python/cconfigspace/base.py:739-744`,
`parameter.rb:3-8`.  The counter and as many names as asked for. -/
def namesFrom (counter : Nat) : Nat → List Name
  | 0 => []
  | k + 1 => defaultName counter :: namesFrom (counter + 1) k

section
variable (simple : Bytes → Bool) (quote : Bytes → Bytes)

/-- The default bounds, `parameter.py:215` and `:232`, `parameter.rb:142` and `:158`. -/
def defaultLower : NumType → Number
  | .float => .float 0#64
  | .int => .int 0

/-- See `defaultLower`. -/
def defaultUpper : NumType → Number
  | .float => .float F64.one
  | .int => .int 100

/-- `FloatNumericalParameter(...)` and `IntNumericalParameter(...)`, `parameter.py:213-226` and `:230-243`, `parameter.rb:139-153` and `:155-169`.
`none` is an argument not given; a default not given is the lower bound. -/
def createNumber (lang : Lang) (ops : FloatOps) (toDouble : Int → Out F64) (t : NumType) (nm : Name) (lower upper quantization default : Option Number) :
    Out Param := do
  let bytes ← nameGiven simple quote lang nm
  let l ← lang.numeric toDouble t (lower.getD (defaultLower t))
  let u ← lang.numeric toDouble t (upper.getD (defaultUpper t))
  let q ← lang.numeric toDouble t (quantization.getD (defaultLower t))
  let d ← lang.numeric toDouble t (default.getD (lower.getD (defaultLower t)))
  createNumerical ops bytes t l u q d

/-- `lower`, `parameter.py:163-177`, `parameter.rb:179-189`; other parameters have no such method. -/
def lowerOf (p : Param) : Out Number :=
  match p.kind with
  | .numerical iv _ => .ok (read iv.type iv.lower)
  | _ => .err .external

/-- `upper`, `parameter.py:179-193`, `parameter.rb:191-201`. -/
def upperOf (p : Param) : Out Number :=
  match p.kind with
  | .numerical iv _ => .ok (read iv.type iv.upper)
  | _ => .err .external

/-- `quantization`, `parameter.py:195-209`, `parameter.rb:203-213`. -/
def quantizationOf (p : Param) : Out Number :=
  match p.kind with
  | .numerical iv q => .ok (read iv.type q)
  | _ => .err .external

variable {α : Type} (t : Tongue α) (jen : Bytes → BitVec 32) (little : Bool)

/-- `CategoricalParameter(...)`, `OrdinalParameter(...)` and `DiscreteParameter(...)`, `parameter.py:250-266`, `:284-300` and `:327-343`,
`parameter.rb:220-236`, `:255-271` and `:297-313`. -/
def createListed (kind : CatKind) (nm : Name) (values : List α) (defaultIndex : Int) : Out Param :=
  if t.lang = .ruby ∧ values.length = 0 then .err .invalidValue
  else do
    let bytes ← nameGiven simple quote t.lang nm
    let ds ← BoundEval.giveAll t values
    let i ← sizeGiven t.lang defaultIndex
    createCategorical jen little kind bytes ds i

/-- `StringParameter(...)`, `parameter.py:359-370`, `parameter.rb:330-341`. -/
def createText (lang : Lang) (nm : Name) : Out Param := do
  let bytes ← nameGiven simple quote lang nm
  .ok (createString bytes)

/-- `values`, `parameter.py:268-276`, `:302-310` and `:345-353`, `parameter.rb:238-247`, `:281-290` and `:315-324`. -/
def values (p : Param) : Out (List α) :=
  match p.kind with
  | .categorical _ vals => do
    let vs ← getValues vals (List.replicate vals.length .none)
    takeAll t vs
  | _ => .err .external

/-- `default_value`, `parameter.py:71-79`, `parameter.rb:70-77`. -/
def defaultValue (p : Param) : Out α := t.take { v := p.default }

/-- `check_value`, `parameter.py:91-97`, `parameter.rb:87-91`. -/
def checkOne (p : Param) (v : α) : Out Bool := do
  let d ← t.give v
  .ok (checkValue jen little p d.v)

/-- `check_values`, `parameter.py:99-108`, `parameter.rb:93-101`: in Ruby `ss` is not defined, and a `NameError` is raised by the first value. -/
def checkAll (p : Param) (vs : List α) : Out (List Bool) :=
  match t.lang with
  | .python => do
    let ds ← BoundEval.giveAll t vs
    .ok (CCS.checkValues jen little p (ds.map Datum.v))
  | .ruby => if vs.length = 0 then .ok [] else .err .external

/-- `compare`, `parameter.py:312-320`, `parameter.rb:273-279`; other parameters have no such method. -/
def compareValues (p : Param) (a b : α) : Out Int :=
  match p.kind with
  | .categorical .ordinal _ => do
    let x ← t.give a
    let y ← t.give b
    let o ← ordinalCompare jen little p x.v y.v
    .ok (match o with | .lt => -1 | .eq => 0 | .gt => 1)
  | _ => .err .external

/-- `sample`, `parameter.py:110-118`, `parameter.rb:103-107`. -/
def sampleOne (p : Param) (bounds : Interval) (draw : Draws) : Out α := do
  let vs ← paramSamples p bounds draw 1
  match vs with
  | v :: _ => t.take { v := v }
  | [] => .ub

/-- `samples`, `parameter.py:120-128`, `parameter.rb:109-114`. -/
def sampleMany (p : Param) (bounds : Interval) (draw : Draws) (count : Int) : Out (List α) :=
  if t.lang = .ruby ∧ count ≤ 0 then .ok []
  else do
    let n ← BoundTuner.arrayOf count
    let vs ← paramSamples p bounds draw n
    takeAll t vs

end

end CCS.BoundParam
