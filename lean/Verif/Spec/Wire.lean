import Verif.Model.Wire

/-!
# Specification of a wire format

What "the announced size is exact", "reading gives back what was written" and "truncated input
is refused" mean for one value.  These definitions mention only the interface: a writer into a
bounded buffer, an announced size, and a reader of a byte string.
-/

namespace CCS.Spec

open CCS

/-- Writing appends exactly `bs` when it fits in the space left, and otherwise answers
`CCS_RESULT_ERROR_NOT_ENOUGH_DATA` (so never overflows the buffer). -/
def WritesBytes (w : WBuf → Out WBuf) (bs : Bytes) : Prop :=
  ∀ buf : WBuf, w buf =
    if bs.length ≤ buf.left then .ok ⟨buf.data ++ bs, buf.left - bs.length⟩
    else .err .notEnoughData

/-- Reading input that starts with `bs` succeeds, gives `x`, and leaves exactly what follows
`bs`. -/
def ReadsBack (r : Bytes → Out (α × Bytes)) (bs : Bytes) (x : α) : Prop :=
  ∀ tail, r (bs ++ tail) = .ok (x, tail)

/-- Reading any strict prefix of `bs` answers `CCS_RESULT_ERROR_NOT_ENOUGH_DATA`. -/
def RefusesTruncation (r : Bytes → Out (α × Bytes)) (bs : Bytes) : Prop :=
  ∀ p q, p ++ q = bs → q ≠ [] → r p = .err .notEnoughData

/-- Round trip with exact announced size. -/
def RoundTrips (w : WBuf → Out WBuf) (size : Nat) (r : Bytes → Out (α × Bytes)) (x : α) : Prop :=
  ∃ bs, WritesBytes w bs ∧ bs.length = size ∧ ReadsBack r bs x

/-- Round trip, exact announced size, and truncated input refused. -/
def Faithful (w : WBuf → Out WBuf) (size : Nat) (r : Bytes → Out (α × Bytes)) (x : α) : Prop :=
  ∃ bs, WritesBytes w bs ∧ bs.length = size ∧ ReadsBack r bs x ∧ RefusesTruncation r bs

end CCS.Spec
