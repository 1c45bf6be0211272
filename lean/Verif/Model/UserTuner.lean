import Verif.Model.TreeRunWire

/-!
# User defined tuners

Models `src/tuner_user_defined.c`, `src/features_tuner_user_defined.c`, `src/tree_tuner_user_defined.c`, the calls of `src/tuner.c`,
`src/features_tuner.c` and `src/tree_tuner.c` on such tuners, and the part of the files that read tuners which is about them.
The callbacks of the user are arbitrary functions on a state of the user, of type `τ`.
-/

namespace CCS

/-- What a call that fills an array answers: the array, if one was given, and the count, if it was asked for. -/
abbrev Listed := Option (List (BitVec 64)) × Option Nat

/-- `ccs_user_defined_tuner_vector_t`, `include/cconfigspace/tuner.h:232-293`, `ccs_user_defined_features_tuner_vector_t`,
`include/cconfigspace/features_tuner.h`, and `ccs_user_defined_tree_tuner_vector_t`, `include/cconfigspace/tree_tuner.h`.  A pointer is `none` when
it is NULL.  The callbacks that fill arrays get a size and tell whether an array and a place for the count are given; `ask`,
`getOptima`, `getHistory` and `suggest` get features, which are NULL for tuners without features. -/
structure UserVector (τ : Type) where
  del : Option (τ → τ × Out Unit)
  ask : Option (BitVec 64 → Nat → Bool → Bool → τ → τ × Out Listed)
  tell : Option (List (BitVec 64) → τ → τ × Out Unit)
  getOptima : Option (BitVec 64 → Nat → Bool → Bool → τ → τ × Out Listed)
  getHistory : Option (BitVec 64 → Nat → Bool → Bool → τ → τ × Out Listed)
  suggest : Option (BitVec 64 → τ → τ × Out (BitVec 64))
  save : Option (Nat → Bool → Bool → τ → τ × Out (Option Bytes × Option Nat))
  restore : Option (List (BitVec 64) → List (BitVec 64) → Bytes → τ → τ × Out Unit)

/-- A user defined tuner, `src/tuner_user_defined.c:6-11`, `src/features_tuner_user_defined.c:6-12` and
`src/tree_tuner_user_defined.c:6-12`: its name, the callbacks, and the pointer of the user. -/
structure UserTuner (τ : Type) where
  name : Bytes
  del : τ → τ × Out Unit
  ask : BitVec 64 → Nat → Bool → Bool → τ → τ × Out Listed
  tell : List (BitVec 64) → τ → τ × Out Unit
  getOptima : BitVec 64 → Nat → Bool → Bool → τ → τ × Out Listed
  getHistory : BitVec 64 → Nat → Bool → Bool → τ → τ × Out Listed
  suggest : Option (BitVec 64 → τ → τ × Out (BitVec 64))
  save : Option (Nat → Bool → Bool → τ → τ × Out (Option Bytes × Option Nat))
  restore : Option (List (BitVec 64) → List (BitVec 64) → Bytes → τ → τ × Out Unit)
  pointer : BitVec 64

/-- `CCS_CHECK_PTR`, `src/cconfigspace_internal.h`: the pointer, unless it is NULL. -/
def checkPtr {α : Type} : Option α → Out α
  | some x => .ok x
  | none => .err .invalidValue

/-- `ccs_create_user_defined_tuner`, `src/tuner_user_defined.c:298-353`, `ccs_create_user_defined_features_tuner`,
`src/features_tuner_user_defined.c:323-386`, and `ccs_create_user_defined_tree_tuner`, `src/tree_tuner_user_defined.c:304-358`.  The
booleans tell whether the spaces are objects of the right type, `features` being `true` for tuners without features, and whether
`tuner_ret` is given.  Allocation is assumed to succeed, and the counts of references are left to `Model/Object`. -/
def createUserTuner {τ : Type} (name : Option Bytes) (space features objectives ret : Bool) (vector : Option (UserVector τ))
    (pointer : BitVec 64) : Out (UserTuner τ) := do
  let name ← checkPtr name
  refute (space = false) .invalidObject
  refute (features = false) .invalidObject
  refute (objectives = false) .invalidObject
  refute (ret = false) .invalidValue
  let v ← checkPtr vector
  let del ← checkPtr v.del
  let ask ← checkPtr v.ask
  let tell ← checkPtr v.tell
  let getOptima ← checkPtr v.getOptima
  let getHistory ← checkPtr v.getHistory
  .ok ⟨name, del, ask, tell, getOptima, getHistory, v.suggest, v.save, v.restore, pointer⟩

/-! ## Calls -/

/-- A call on a tuner.  `tell` is given `none` for a NULL array of a given size. -/
inductive TunerCall
  | ask (features : BitVec 64) (num : Nat) (array count : Bool)
  | tell (evaluations : Option (List (BitVec 64))) (num : Nat)
  | getOptima (features : BitVec 64) (num : Nat) (array count : Bool)
  | getHistory (features : BitVec 64) (num : Nat) (array count : Bool)
  | suggest (features : BitVec 64) (ret : Bool)
  deriving DecidableEq

/-- The answer to a call. -/
inductive TunerAnswer
  | done
  | listed (l : Listed)
  | configuration (c : BitVec 64)
  deriving DecidableEq

/-- What the library knows of the features given to a features tuner: whether a handle designates features, and the outcome of
`ccs_features_space_check_features` on its features space. -/
structure FeatureView where
  isFeatures : BitVec 64 → Bool
  valid : BitVec 64 → Out Bool

/-- `CCS_CHECK_ARY` and the check that follows it, `src/tuner.c:63-67,94-98,111-115` (`src/features_tuner.c:84-87,125-128,147-150`,
`src/tree_tuner.c:66-70,98-102,116-120`). -/
def checkArray (num : Nat) (array count : Bool) : Out Unit := do
  refute (num ≠ 0 ∧ array = false) .invalidValue
  refute (array = false ∧ count = false) .invalidValue

/-- The check of the features by the features space, `src/features_tuner.c:90-93,172-175`. -/
def checkValid : Option FeatureView → BitVec 64 → Out Unit
  | none, _ => .ok ()
  | some w, f => do
    let b ← w.valid f
    refute (b = false) .invalidFeatures

/-- `CCS_CHECK_OBJ(features, ...)`, `src/features_tuner.c:83,169`. -/
def checkFeaturesObj : Option FeatureView → BitVec 64 → Out Unit
  | none, _ => .ok ()
  | some w, f => refute (w.isFeatures f = false) .invalidObject

/-- The check of features that may be NULL, `src/features_tuner.c:123-124,145-146`. -/
def checkMaybeFeatures : Option FeatureView → BitVec 64 → Out Unit
  | none, _ => .ok ()
  | some w, f => refute (f ≠ 0#64 ∧ w.isFeatures f = false) .invalidObject

/-- The features handed to the callback: NULL for tuners without features. -/
def featuresGiven (w : Option FeatureView) (f : BitVec 64) : BitVec 64 := if w.isSome then f else 0#64

/-- The checks made before the operation of the tuner is called; `w` is `none` for tuners without features.  `ccs_tuner_ask`,
`src/tuner.c:55-71`, `ccs_tuner_tell`, `:73-85`, `ccs_tuner_get_optima`, `:87-103`, `ccs_tuner_get_history`, `:105-121`, `ccs_tuner_suggest`,
`:123-132`, the same in `src/tree_tuner.c:57-137`, and `src/features_tuner.c:74-178`.  The operation `suggest` of user
defined tuners is never NULL (`src/tuner_user_defined.c:289-296`). -/
def checkCall (w : Option FeatureView) : TunerCall → Out Unit
  | .ask f num array count => do
    checkFeaturesObj w f
    checkArray num array count
    checkValid w f
  | .tell es num => refute (num ≠ 0 ∧ es = none) .invalidValue
  | .getOptima f num array count => do
    checkMaybeFeatures w f
    checkArray num array count
  | .getHistory f num array count => do
    checkMaybeFeatures w f
    checkArray num array count
  | .suggest f ret => do
    checkFeaturesObj w f
    refute (ret = false) .invalidValue
    checkValid w f

/-- An outcome with its kind of answer. -/
def answerWith {τ α : Type} (f : α → TunerAnswer) (r : τ × Out α) : τ × Out TunerAnswer :=
  (r.1, r.2 >>= fun x => .ok (f x))

/-- The operations of a user defined tuner, `src/tuner_user_defined.c:222-287`, `src/features_tuner_user_defined.c:240-311` and
`src/tree_tuner_user_defined.c:227-292`. -/
def UserTuner.serve {τ : Type} (t : UserTuner τ) (w : Option FeatureView) : TunerCall → τ → τ × Out TunerAnswer
  | .ask f num array count, s => answerWith .listed (t.ask (featuresGiven w f) num array count s)
  | .tell es _, s => answerWith (fun _ => .done) (t.tell (es.getD []) s)
  | .getOptima f num array count, s => answerWith .listed (t.getOptima (featuresGiven w f) num array count s)
  | .getHistory f num array count, s => answerWith .listed (t.getHistory (featuresGiven w f) num array count s)
  | .suggest f _, s =>
    match t.suggest with
    | none => (s, .err .unsupportedOperation)
    | some g => answerWith .configuration (g (featuresGiven w f) s)

/-- A call on a user defined tuner.  The handle of the tuner is right when `t` is given; otherwise it is NULL or designates another
object, and `CCS_CHECK_OBJ` refuses it. -/
def callTuner {τ : Type} (w : Option FeatureView) (t : Option (UserTuner τ)) (c : TunerCall) (s : τ) : τ × Out TunerAnswer :=
  match t with
  | none => (s, .err .invalidObject)
  | some t =>
    match checkCall w c with
    | .ok () => t.serve w c s
    | .err e => (s, .err e)
    | .ub => (s, .ub)

/-- Calls one after the other, whatever the answers. -/
def callsTuner {τ : Type} (w : Option FeatureView) (t : UserTuner τ) : List TunerCall → τ → τ × List (Out TunerAnswer)
  | [], s => (s, [])
  | c :: cs, s =>
    let r := callTuner w (some t) c s
    let rs := callsTuner w t cs r.1
    (rs.1, r.2 :: rs.2)

/-- `ccs_user_defined_tuner_get_tuner_data`, `src/tuner_user_defined.c:355-367`, the features variant,
`src/features_tuner_user_defined.c:388-402`, and the tree variant, `src/tree_tuner_user_defined.c:360-374`: `type` is the type of
the tuner, and `none` an object that is not a tuner. -/
def getTunerData (withFeatures : Bool) (type : Option (BitVec 32)) (pointer : BitVec 64) (ret : Bool) : Out (BitVec 64) := do
  let t ← match type with
    | some t => Out.ok t
    | none => .err .invalidObject
  refute (ret = false) .invalidValue
  refute (t ≠ 1#32) (if withFeatures then .invalidFeaturesTuner else .invalidTuner)
  .ok pointer

/-! ## Writing -/

/-- `CCS_TUNER_TYPE_USER_DEFINED`, `include/cconfigspace/tuner.h:19-28`, and the same in `features_tuner.h` and `tree_tuner.h`. -/
def userDefinedTuner : BitVec 32 := 1#32

/-- The size asked from a callback: a variable set to zero beforehand. -/
def countOf (l : Listed) : Nat := l.2.getD 0

/-- The array filled by a callback: zeroes where it did not write. -/
def arrayOf (n : Nat) (l : Listed) : List (BitVec 64) := ((l.1.getD []) ++ List.replicate n 0#64).take n

/-- Then, keeping the state of the user. -/
def thenUser {τ α β : Type} (r : τ × Out α) (f : α → τ → τ × Out β) : τ × Out β :=
  match r.2 with
  | .ok x => f x r.1
  | .err e => (r.1, .err e)
  | .ub => (r.1, .ub)

/-- A call skipped when there is nothing to ask for. -/
def ifAny {τ α : Type} (n : Nat) (none : α) (f : τ → τ × Out α) (s : τ) : τ × Out α :=
  if n = 0 then (s, .ok none) else f s

/-- The history and the optima given by the callbacks, `src/tuner_user_defined.c:38-77` and `:105-155`
(`src/features_tuner_user_defined.c:44-86,118-170`, `src/tree_tuner_user_defined.c:40-80,109-158`).  Counts whose sum does not fit in 64
bits are called undefined, and so is a NULL evaluation in the history, whose operations are read. -/
def UserTuner.gather {τ : Type} (t : UserTuner τ) (s : τ) : τ × Out (List (BitVec 64) × List (BitVec 64)) :=
  thenUser (t.getHistory 0#64 0 false true s) fun nh s =>
  thenUser (t.getOptima 0#64 0 false true s) fun no s =>
  if 2 ^ 64 ≤ countOf nh + countOf no then (s, .ub)
  else
    thenUser (ifAny (countOf nh) (none, none) (t.getHistory 0#64 (countOf nh) true false) s) fun hs s =>
    if 0#64 ∈ arrayOf (countOf nh) hs then (s, .ub)
    else
      thenUser (ifAny (countOf no) (none, none) (t.getOptima 0#64 (countOf no) true false) s) fun os s =>
      (s, .ok (arrayOf (countOf nh) hs, arrayOf (countOf no) os))

/-- The size of the state of the user, `src/tuner_user_defined.c:78-83` and `:156-161` (`src/features_tuner_user_defined.c:87-92,171-176`,
`src/tree_tuner_user_defined.c:81-86,159-164`). -/
def UserTuner.stateSize {τ : Type} (t : UserTuner τ) (s : τ) : τ × Out Nat :=
  match t.save with
  | none => (s, .ok 0)
  | some f => thenUser (f 0 false true s) fun r s => (s, .ok (r.2.getD 0))

/-- The state of the user, `src/tuner_user_defined.c:156-171` (`src/features_tuner_user_defined.c:171-187`,
`src/tree_tuner_user_defined.c:159-175`).  The callback writes in the buffer; it is called undefined that it does not write the
number of bytes it announced. -/
def UserTuner.state {τ : Type} (t : UserTuner τ) (s : τ) : τ × Out Bytes :=
  thenUser (t.stateSize s) fun n s =>
  match t.save with
  | none => (s, .ok [])
  | some f => ifAny n [] (fun s => thenUser (f n true false s) fun r s =>
      if (r.1.getD []).length = n then (s, .ok (r.1.getD [])) else (s, .ub)) s

/-- The tuner with the history and the optima its callbacks give. -/
def TunerObj.showing (o : TunerObj) (l : List (BitVec 64) × List (BitVec 64)) : TunerObj := { o with tuner := ⟨l.1, l.2⟩ }

/-- `_ccs_tuner_user_defined_serialize_size`, `src/tuner_user_defined.c:25-90,177-197`, and `_ccs_features_tuner_user_defined_serialize_size`,
`src/features_tuner_user_defined.c:29-100,193-214`.  The field `tuner` of `o` is not used. -/
def UserTuner.size {τ : Type} (t : UserTuner τ) (ops : FloatOps) (little : Bool) (hp : Heap) (pdata : BitVec 64 → Bytes) (o : TunerObj) (s : τ) :
    τ × Out Nat :=
  thenUser (t.gather s) fun l s =>
  thenUser (t.stateSize s) fun n s =>
  (s, do
    let r ← szRun ops little hp pdata (o.showing l)
    .ok (szObj (tunerTypeOf o.features.isSome) o.handle + (szEnum userDefinedTuner + r + (szSize n + n)) + szUserData o.data))

/-- The message of a user defined tuner whose history, optima and state are known. -/
def serUserTuner (ops : FloatOps) (little : Bool) (hp : Heap) (pdata : BitVec 64 → Bytes) (o : TunerObj) (state : Bytes) : Wr :=
  serObj (tunerTypeOf o.features.isSome) o.handle ⨟ (serEnum userDefinedTuner ⨟ serRun ops little hp pdata o ⨟ serBlob state) ⨟
    serUserData o.data

/-- `_ccs_tuner_user_defined_serialize`, `src/tuner_user_defined.c:92-175,199-220`, and `_ccs_features_tuner_user_defined_serialize`,
`src/features_tuner_user_defined.c:102-191,216-238`.  Simplification: the callbacks are called before anything is written, so that an
error of theirs comes before the lack of room. -/
def UserTuner.store {τ : Type} (t : UserTuner τ) (ops : FloatOps) (little : Bool) (hp : Heap) (pdata : BitVec 64 → Bytes) (o : TunerObj)
    (s : τ) : τ × Out Wr :=
  thenUser (t.gather s) fun l s =>
  thenUser (t.state s) fun st s =>
  (s, .ok (serUserTuner ops little hp pdata (o.showing l) st))

/-! ## Reading -/

/-- What is done with what was read, `src/tuner_deserialize.h:198-216`, `src/features_tuner_deserialize.h:216-235` and
`src/tree_tuner_deserialize.h:199-217`: the callback `deserialize_state` if there is one, else the history is told. -/
def UserTuner.revive {τ : Type} (t : UserTuner τ) (history optima : List (BitVec 64)) (state : Bytes) (s : τ) : τ × Out Unit :=
  match t.restore with
  | some f => f history optima state s
  | none => t.tell history s

/-- The outcome of a callback as that of a reader; the state of the user after a failure is not represented. -/
def reviveOut {τ : Type} (r : τ × Out Unit) : Out τ := r.2 >>= fun _ => .ok r.1

/-- `_ccs_tuner_deserialize`, `src/tuner_deserialize.h:159-234,237-325`, and `_ccs_features_tuner_deserialize`,
`src/features_tuner_deserialize.h:171-254,257-347`, for user defined tuners, with no outer handle map: `vector` and `pointer` are
those of the options.  Random tuners are read by `deTuner`, and their type is refused here.  Simplifications: those of
`deTuner`; the spaces that were read have the right types. -/
def deUserTuner {σ τ : Type} (H : Host σ) (withFeatures : Bool) (P : Places) (vector : Option (UserVector τ)) (pointer : BitVec 64)
    (s : τ) : Rd (τ × UserTuner τ × ReadTuner) := do
  let o ← deObj
  Rd.lift (refute (o.1 ≠ tunerTypeOf withFeatures) .invalidType)
  let t ← deEnum
  Rd.lift (refute (t = userDefinedTuner ∧ vector.isNone = true) .invalidValue)
  Rd.lift (refute (t ≠ userDefinedTuner) (wrongTuner withFeatures))
  let r ← deRun H withFeatures P
  let state ← deBlob
  let tuner ← Rd.lift (createUserTuner (some r.name) true true true true vector pointer)
  let s' ← Rd.lift (reviveOut (tuner.revive (r.history.map (·.handle)) r.optima state s))
  let data ← deUserData
  pure (s', tuner, ⟨o.2, r.name, r.space, r.objectives, r.features, r.history, ⟨r.history.map (·.handle), r.optima⟩, data⟩)

/-! ## Tree tuners -/

/-- The tree tuner with the history and the optima its callbacks give. -/
def TreeTunerObj.showing (o : TreeTunerObj) (l : List (BitVec 64) × List (BitVec 64)) : TreeTunerObj := { o with tuner := ⟨l.1, l.2⟩ }

/-- `_ccs_tree_tuner_user_defined_serialize_size`, `src/tree_tuner_user_defined.c:27-93,181-202`. -/
def UserTuner.treeSize {τ : Type} (t : UserTuner τ) (little : Bool) (g : Grove) (addr : Nat → BitVec 64) (pdata : BitVec 64 → Bytes)
    (o : TreeTunerObj) (s : τ) : τ × Out Nat :=
  thenUser (t.gather s) fun l s =>
  thenUser (t.stateSize s) fun n s =>
  (s, do
    let r ← szTreeRun little g addr pdata (o.showing l)
    .ok (szObj treeTunerType o.handle + (szEnum userDefinedTuner + r + (szSize n + n)) + szUserData o.data))

/-- The message of a user defined tree tuner whose history, optima and state are known. -/
def serUserTreeTuner (little : Bool) (g : Grove) (addr : Nat → BitVec 64) (pdata : BitVec 64 → Bytes) (o : TreeTunerObj) (state : Bytes) :
    Wr :=
  serObj treeTunerType o.handle ⨟ (serEnum userDefinedTuner ⨟ serTreeRun little g addr pdata o ⨟ serBlob state) ⨟ serUserData o.data

/-- `_ccs_tree_tuner_user_defined_serialize`, `src/tree_tuner_user_defined.c:95-179,204-225`, with the simplification of `UserTuner.store`. -/
def UserTuner.treeStore {τ : Type} (t : UserTuner τ) (little : Bool) (g : Grove) (addr : Nat → BitVec 64) (pdata : BitVec 64 → Bytes)
    (o : TreeTunerObj) (s : τ) : τ × Out Wr :=
  thenUser (t.gather s) fun l s =>
  thenUser (t.state s) fun st s =>
  (s, .ok (serUserTreeTuner little g addr pdata (o.showing l) st))

/-- The vector of a tree tuner seen as that of a dynamic tree space.  The same pointer of the options is cast to one and to the other,
`src/tree_tuner_deserialize.h:186-187` and `src/tree_space_deserialize.h:76-77`: the second callback of the tuner, `ask`, takes the
place of `get_child`, and the fourth, `get_optima`, that of `deserialize_state` (`include/cconfigspace/tree_space.h:61-109`).  Calling a
function through a pointer to another type of function is undefined. -/
def UserVector.asTreeVector {τ : Type} (v : UserVector τ) : TreeVector :=
  ⟨v.del.isSome && v.ask.isSome, if v.getOptima.isSome then some fun _ => .ub else none⟩

/-- `_ccs_tree_tuner_deserialize`, `src/tree_tuner_deserialize.h:160-235,237-326`, for user defined tuners.  The field `vector` of `H` is not
used: the pointer of the options is the vector of the tuner.  Simplifications: as in `deUserTuner`. -/
def deUserTreeTuner {τ : Type} (H : TreeHost) (P : Places) (vector : Option (UserVector τ)) (pointer : BitVec 64) (s : τ) :
    Rd (τ × UserTuner τ × ReadTreeTuner) := do
  let o ← deObj
  Rd.lift (refute (o.1 ≠ treeTunerType) .invalidType)
  let t ← deEnum
  Rd.lift (refute (t = userDefinedTuner ∧ vector.isNone = true) .invalidValue)
  Rd.lift (refute (t ≠ userDefinedTuner) .invalidType)
  let r ← deTreeRun { H with vector := vector.map UserVector.asTreeVector } P
  let state ← deBlob
  let tuner ← Rd.lift (createUserTuner (some r.name) true true true true vector pointer)
  let s' ← Rd.lift (reviveOut (tuner.revive (r.history.map (·.handle)) r.optima state s))
  let data ← deUserData
  pure (s', tuner, ⟨o.2, r.name, r.trees, r.space, r.objectives, r.history, ⟨r.history.map (·.handle), r.optima⟩, data⟩)

end CCS
