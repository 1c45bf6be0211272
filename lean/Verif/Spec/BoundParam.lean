import Verif.Model.BoundParam
import Verif.Spec.BoundInterval
import Verif.Spec.BoundTree
import Verif.Spec.Param

/-!
# What a program in Python or Ruby expects of parameters
-/

namespace CCS.BoundParam.Spec

open CCS CCS.BoundParam CCS.BoundInterval CCS.BoundTree CCS.BoundTree.Spec

/-- Names that are equal for the program: strings and symbols of different encodings are equal only if they are ASCII. -/
def Alike : Name → Name → Prop
  | .text s b, .text s' b' => s = s' ∧ (b = b' ∨ Rb.Spec.Ascii s)
  | .symbol s b, .symbol s' b' => s = s' ∧ (b = b' ∨ Rb.Spec.Ascii s)
  | _, _ => False

/-- Some line of a text begins with a colon. -/
def ColonLine (s : Bytes) : Prop := ∃ before after, s = before ++ 58#8 :: after ∧ (before = [] ∨ ∃ more, before = more ++ [10#8])

/-- Names that come back in Ruby: ASCII strings without NUL and without a line that begins with a colon, and ASCII symbols that are written without
quotes. -/
def Nameable (simple : Bytes → Bool) : Name → Prop
  | .text s _ => 0#8 ∉ s ∧ Rb.Spec.Ascii s ∧ ¬ ColonLine s
  | .symbol s _ => 0#8 ∉ s ∧ Rb.Spec.Ascii s ∧ simple s = true

/-- A parameter that a program created with a name, of any kind. -/
inductive MadeAs (simple : Bytes → Bool) (quote : Bytes → Bytes) (lang : Lang) (nm : Name) : Param → Prop
  | number {ops : FloatOps} {toDouble : Int → Out F64} {type : NumType} {lower upper quantization default : Option Number} {p : Param} :
      createNumber simple quote lang ops toDouble type nm lower upper quantization default = .ok p → MadeAs simple quote lang nm p
  | listed {α : Type} {t : Tongue α} {jen : Bytes → BitVec 32} {little : Bool} {kind : CatKind} {values : List α} {index : Int} {p : Param} :
      t.lang = lang → createListed simple quote t jen little kind nm values index = .ok p → MadeAs simple quote lang nm p
  | text {p : Param} : createText simple quote lang nm = .ok p → MadeAs simple quote lang nm p

/-- A stored number as a value of the library. -/
def stored : NumType → BitVec 64 → Value
  | .int, x => .int x
  | .float, x => .float x

/-- A language whose usual values the library tells apart as the program does and gives back as they were, numbers among them. -/
structure Understood {α : Type} (t : Tongue α) (usual numeric : α → Prop) (num : Number → α) (same : α → α → Prop) : Prop where
  back : ∀ v, usual v → ∃ d, t.give v = .ok d ∧ Label d.v ∧ ∃ w, t.take { v := d.v } = .ok w ∧ usual w ∧ same w v
  apart : ∀ v w d e, usual v → usual w → t.give v = .ok d → t.give w = .ok e → (d.v = e.v ↔ same v w)
  numeric : ∀ v d, usual v → t.give v = .ok d → (numeric v ↔ ∃ ty x, d.v = stored ty x)
  num : ∀ ty x, t.take { v := stored ty x } = .ok (num (read ty x)) ∧ usual (num (read ty x)) ∧
    ∃ d, t.give (num (read ty x)) = .ok d ∧ d.v = stored ty x

/-- Integers and floats of Python. -/
def NumberPy : Py.Val → Prop
  | .int _ => True
  | .float _ => True
  | _ => False

/-- Integers and floats of Ruby. -/
def NumberRb : Rb.Val → Prop
  | .int _ => True
  | .float _ => True
  | _ => False

/-- A number as a value of Python. -/
def valuePy : Number → Py.Val
  | .int i => .int i
  | .float f => .float f

/-- A number as a value of Ruby. -/
def valueRb : Number → Rb.Val
  | .int i => .int i
  | .float f => .float f

/-- A parameter that a program created with usual values. -/
inductive MadeUsual {α : Type} (t : Tongue α) (usual : α → Prop) (ops : FloatOps) (jen : Bytes → BitVec 32) (little : Bool) : Param → Prop
  | number {simple : Bytes → Bool} {quote : Bytes → Bytes} {toDouble : Int → Out F64} {type : NumType} {nm : Name}
      {lower upper quantization default : Option Number} {p : Param} :
      createNumber simple quote t.lang ops toDouble type nm lower upper quantization default = .ok p → MadeUsual t usual ops jen little p
  | listed {simple : Bytes → Bool} {quote : Bytes → Bytes} {kind : CatKind} {nm : Name} {values : List α} {index : Int} {p : Param} :
      (∀ v ∈ values, usual v) → createListed simple quote t jen little kind nm values index = .ok p → MadeUsual t usual ops jen little p

/-- The same values in the same order. -/
def SameList {α : Type} (same : α → α → Prop) : List α → List α → Prop
  | [], [] => True
  | v :: vs, w :: ws => same v w ∧ SameList same vs ws
  | _, _ => False

end CCS.BoundParam.Spec
