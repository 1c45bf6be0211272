import Verif.Model.Fd

/-! # Specification: what a schedule of descriptor results offers -/

namespace CCS.Spec

open CCS

/-- Bytes the descriptor is willing to accept over a schedule. -/
def accepted : List WriteRes → Nat
  | [] => 0
  | .took n :: s => n + accepted s
  | _ :: s => accepted s

/-- Number of reads that return data as long as there is some. -/
def deliveries : List ReadRes → Nat
  | [] => 0
  | .got (_ + 1) :: s => 1 + deliveries s
  | _ :: s => deliveries s

end CCS.Spec
