import Verif.Model.UserTuner
import Verif.Spec.TreeRunWire

/-!
# Specification of user defined tuners

Which calls reach the callbacks of the user, with which arguments, and what the callbacks show when the tuner is written.
-/

namespace CCS.Spec

open CCS

/-- The callbacks a user must give. -/
def Complete {τ : Type} (v : UserVector τ) : Prop :=
  v.del.isSome ∧ v.ask.isSome ∧ v.tell.isSome ∧ v.getOptima.isSome ∧ v.getHistory.isSome

/-- A callback being called, with its arguments. -/
inductive UserEvent
  | ask (features : BitVec 64) (num : Nat) (array count : Bool)
  | tell (evaluations : List (BitVec 64))
  | getOptima (features : BitVec 64) (num : Nat) (array count : Bool)
  | getHistory (features : BitVec 64) (num : Nat) (array count : Bool)
  | suggest (features : BitVec 64)
  | save (num : Nat) (array count : Bool)
  | restore (history optima : List (BitVec 64)) (state : Bytes)
  | del
  deriving DecidableEq

/-- A callback that first notes it is called. -/
def noting {τ α : Type} (e : UserEvent) (f : τ → τ × Out α) (s : τ × List UserEvent) : (τ × List UserEvent) × Out α :=
  (((f s.1).1, s.2 ++ [e]), (f s.1).2)

/-- The callbacks of `v`, each of which notes that it is called and then does the same. -/
def recording {τ : Type} (v : UserVector τ) : UserVector (τ × List UserEvent) where
  del := v.del.map fun f => noting .del f
  ask := v.ask.map fun f x n a c => noting (.ask x n a c) (f x n a c)
  tell := v.tell.map fun f es => noting (.tell es) (f es)
  getOptima := v.getOptima.map fun f x n a c => noting (.getOptima x n a c) (f x n a c)
  getHistory := v.getHistory.map fun f x n a c => noting (.getHistory x n a c) (f x n a c)
  suggest := v.suggest.map fun f x => noting (.suggest x) (f x)
  save := v.save.map fun f n a c => noting (.save n a c) (f n a c)
  restore := v.restore.map fun f h o st => noting (.restore h o st) (f h o st)

/-- A size and an array that go together: there is an array when the size is not zero, and an array or a place for the count. -/
def FillsArray (num : Nat) (array count : Bool) : Prop := (num ≠ 0 → array = true) ∧ (array = true ∨ count = true)

/-- Features that the features space of the tuner accepts; tuners without features accept anything. -/
def FeaturesOk (w : Option FeatureView) (f : BitVec 64) : Prop := ∀ x, w = some x → x.isFeatures f = true ∧ x.valid f = .ok true

/-- Features, or none; tuners without features accept anything. -/
def MaybeFeatures (w : Option FeatureView) (f : BitVec 64) : Prop := ∀ x, w = some x → f = 0#64 ∨ x.isFeatures f = true

/-- The calls whose arguments are right. -/
def RightCall (w : Option FeatureView) : TunerCall → Prop
  | .ask f num array count => FeaturesOk w f ∧ FillsArray num array count
  | .tell es num => num ≠ 0 → es ≠ none
  | .getOptima f num array count => MaybeFeatures w f ∧ FillsArray num array count
  | .getHistory f num array count => MaybeFeatures w f ∧ FillsArray num array count
  | .suggest f ret => FeaturesOk w f ∧ ret = true

/-- The calls that reach the user: the arguments are right and, for `suggest`, the user has given the callback. -/
def Reaches {τ : Type} (w : Option FeatureView) (v : UserVector τ) (c : TunerCall) : Prop :=
  RightCall w c ∧ ∀ f ret, c = .suggest f ret → v.suggest.isSome = true

/-- The callback a call is for.  Tuners without features give NULL. -/
def eventOf (w : Option FeatureView) : TunerCall → UserEvent
  | .ask f num array count => .ask (if w.isSome then f else 0#64) num array count
  | .tell es _ => .tell (es.getD [])
  | .getOptima f num array count => .getOptima (if w.isSome then f else 0#64) num array count
  | .getHistory f num array count => .getHistory (if w.isSome then f else 0#64) num array count
  | .suggest f _ => .suggest (if w.isSome then f else 0#64)

/-- Why a call is refused. -/
inductive Refusal {τ : Type} (w : Option FeatureView) (v : UserVector τ) : TunerCall → Err → Prop
  | askArray {f n a c} : ¬ FillsArray n a c → Refusal w v (.ask f n a c) .invalidValue
  | tellArray {es n} : n ≠ 0 → es = none → Refusal w v (.tell es n) .invalidValue
  | optimaArray {f n a c} : ¬ FillsArray n a c → Refusal w v (.getOptima f n a c) .invalidValue
  | historyArray {f n a c} : ¬ FillsArray n a c → Refusal w v (.getHistory f n a c) .invalidValue
  | suggestPlace {f} : Refusal w v (.suggest f false) .invalidValue
  | suggestAbsent {f r} : v.suggest = none → Refusal w v (.suggest f r) .unsupportedOperation
  | askObject {f n a c x} : w = some x → x.isFeatures f = false → Refusal w v (.ask f n a c) .invalidObject
  | suggestObject {f r x} : w = some x → x.isFeatures f = false → Refusal w v (.suggest f r) .invalidObject
  | optimaObject {f n a c x} : w = some x → f ≠ 0#64 → x.isFeatures f = false → Refusal w v (.getOptima f n a c) .invalidObject
  | historyObject {f n a c x} : w = some x → f ≠ 0#64 → x.isFeatures f = false → Refusal w v (.getHistory f n a c) .invalidObject
  | askValid {f n a c x} : w = some x → x.valid f = .ok false → Refusal w v (.ask f n a c) .invalidFeatures
  | suggestValid {f r x} : w = some x → x.valid f = .ok false → Refusal w v (.suggest f r) .invalidFeatures
  | askCheck {f n a c x e} : w = some x → x.valid f = .err e → Refusal w v (.ask f n a c) e
  | suggestCheck {f r x e} : w = some x → x.valid f = .err e → Refusal w v (.suggest f r) e

/-- What a call does when it reaches the user: the callback is applied to the state, and its outcome is the answer. -/
inductive Does {τ : Type} (v : UserVector τ) (s : τ) : UserEvent → τ × Out TunerAnswer → Prop
  | ask {g x n a c} : v.ask = some g → Does v s (.ask x n a c) ((g x n a c s).1, (g x n a c s).2 >>= fun l => .ok (.listed l))
  | tell {g es} : v.tell = some g → Does v s (.tell es) ((g es s).1, (g es s).2 >>= fun _ => .ok .done)
  | getOptima {g x n a c} : v.getOptima = some g →
      Does v s (.getOptima x n a c) ((g x n a c s).1, (g x n a c s).2 >>= fun l => .ok (.listed l))
  | getHistory {g x n a c} : v.getHistory = some g →
      Does v s (.getHistory x n a c) ((g x n a c s).1, (g x n a c s).2 >>= fun l => .ok (.listed l))
  | suggest {g x} : v.suggest = some g → Does v s (.suggest x) ((g x s).1, (g x s).2 >>= fun c => .ok (.configuration c))

/-- In state `s` the callbacks show the history `h`, the optima `os` and the saved state `st`, and looking at them does not change
the state of the user. -/
structure Displays {τ : Type} (v : UserVector τ) (s : τ) (h os : List (BitVec 64)) (st : Bytes) : Prop where
  historyCount : ∀ g, v.getHistory = some g → g 0#64 0 false true s = (s, .ok (none, some h.length))
  history : ∀ g, v.getHistory = some g → h ≠ [] → g 0#64 h.length true false s = (s, .ok (some h, none))
  optimaCount : ∀ g, v.getOptima = some g → g 0#64 0 false true s = (s, .ok (none, some os.length))
  optima : ∀ g, v.getOptima = some g → os ≠ [] → g 0#64 os.length true false s = (s, .ok (some os, none))
  stateless : v.save = none → st = []
  stateSize : ∀ g, v.save = some g → g 0 false true s = (s, .ok (none, some st.length))
  state : ∀ g, v.save = some g → st ≠ [] → g st.length true false s = (s, .ok (some st, none))
  notNull : 0#64 ∉ h

/-- What becomes of the state of a user who is given what was read: `deserialize_state` if there is one, else the history is told. -/
def Revived {τ : Type} (v : UserVector τ) (s : τ) (h os : List (BitVec 64)) (st : Bytes) (r : τ × Out Unit) : Prop :=
  (∃ g, v.restore = some g ∧ r = g h os st s) ∨ (v.restore = none ∧ ∃ g, v.tell = some g ∧ r = g h s)

end CCS.Spec
