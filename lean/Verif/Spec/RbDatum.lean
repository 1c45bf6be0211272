/-
What a Ruby program expects of values it gives to the library and of maps.
-/
import Verif.Model.RbDatum

namespace CCS.Rb.Spec
open CCS CCS.Rb

/-- Only ASCII characters. -/
def Ascii (s : Bytes) : Prop := ∀ c ∈ s, c.toNat < 128

instance (s : Bytes) : Decidable (Ascii s) := inferInstanceAs (Decidable (∀ c ∈ s, c.toNat < 128))

/-- `==` of Ruby: strings of different encodings are equal only if they are ASCII. -/
def same : Val → Val → Bool
  | .str s b, .str s' b' => decide (s = s' ∧ (b = b' ∨ Ascii s))
  | x, y => decide (x = y)

/-- Values a program can count on: integers of 64 bits, ASCII strings without NUL, objects. -/
def Representable : Val → Prop
  | .int i => -2 ^ 63 ≤ i ∧ i < 2 ^ 63
  | .str s _ => 0#8 ∉ s ∧ Ascii s
  | .obj h => h ≠ 0#64
  | .ident _ => False
  | .other => False
  | _ => True

/-- The program holds a reference to a value that is an object. -/
def Held (r : Refs) : Val → Prop
  | .obj h => 0 < r h
  | _ => True

/-- A dictionary. -/
abbrev Dict := List (Val × Val)

/-- The value of a key. -/
def Dict.find (f : Dict) (k : Val) : Option Val := (List.find? (fun p => same p.1 k) f).map (·.2)

/-- A dictionary after an operation. -/
def Dict.after (f : Dict) : Use → Dict
  | .set k v => List.filter (fun p => !same p.1 k) f ++ [(k, v)]
  | _ => f

/-- What an operation gives: an absent key is read as `nil`. -/
def Dict.answer (f : Dict) : Use → Answer
  | .set _ _ => .done
  | .get k => .value ((f.find k).getD .nil)
  | .has k => .flag (f.find k).isSome
  | .size => .count f.length

/-- What a program gets. -/
def Dict.answers (f : Dict) : List Use → List Answer
  | [] => []
  | u :: us => f.answer u :: (f.after u).answers us

/-- The values of an operation. -/
def Use.values : Use → List Val
  | .set k v => [k, v]
  | .get k => [k]
  | .has k => [k]
  | .size => []

/-- Equal answers. -/
def sameAnswer : Answer → Answer → Bool
  | .value x, .value y => same x y
  | x, y => decide (x = y)

/-- Equal answers, one by one. -/
def SameAnswers : List Answer → List Answer → Prop
  | [], [] => True
  | a :: as, b :: bs => sameAnswer a b = true ∧ SameAnswers as bs
  | _, _ => False

end CCS.Rb.Spec
