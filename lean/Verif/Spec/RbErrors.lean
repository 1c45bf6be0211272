import Verif.Model.RbErrors
import Verif.Spec.PyErrors

/-! # What the library should see of callbacks written in Ruby -/

namespace CCS.Rb.Spec

open CCS CCS.Py CCS.Py.Spec

/-- For each callback that runs, in the order they end: success if it raises nothing, else the code of what it raises. -/
def told : Py.Body → List (Option Err)
  | .done => []
  | .raise _ _ => []
  | .raiseError _ _ => []
  | .exit => []
  | .call _ callback _ next =>
    match outcome callback with
    | some (r, _) => told callback ++ [some r.code]
    | none => told callback ++ none :: told next
  | .attempt _ callback next => told callback ++ (outcome callback).map (·.1.code) :: told next

end CCS.Rb.Spec
