import Verif.Model.WireObj

/-!
# Maps

Models `src/map.c` and `src/map_deserialize.h`.  The table is a uthash table; it is represented by
its list of entries in insertion order (the order of `HASH_ITER`).  Memory is assumed
available.
-/

namespace CCS

/-- Reference counts, indexed by object address (`refcount` in `src/cconfigspace_internal.h:231-252`);
0 means there is no such object (any more). -/
abbrev Refs := BitVec 64 → Nat

/-- `ccs_retain_object`, `src/cconfigspace.c:44-51`.  NULL is refused; the memory of an object whose
count reached 0 is freed, so using it is undefined. -/
def retain (r : Refs) (h : BitVec 64) : Call Refs :=
  if h = 0#64 then .ret (some .invalidObject) r
  else if r h = 0 then .ub
  else .ret none (fun x => if x = h then r x + 1 else r x)

/-- `ccs_release_object`, `src/cconfigspace.c:53-72`.  Simplification: the references that the
object itself releases when it is destroyed are not modelled here. -/
def release (r : Refs) (h : BitVec 64) : Call Refs :=
  if h = 0#64 then .ret (some .invalidObject) r
  else if r h = 0 then .ub
  else .ret none (fun x => if x = h then r x - 1 else r x)

/-- `_ccs_map_datum_t`, `src/map.c:7-12`. -/
structure Entry where
  key : Datum
  value : Datum
  deriving DecidableEq, Repr

/-- A map and the reference counts of all objects. -/
structure MapState where
  entries : List Entry
  refs : Refs

section
variable (jen : Bytes → BitVec 32) (little : Bool)

/-- The test by which `HASH_FIND` recognises a key: equal hashes and `_datum_cmp` equal
(`src/datum_uthash.h:8-12`, uthash's `HASH_FIND_IN_BKT`). -/
def keyMatch (k : Datum) (e : Entry) : Bool :=
  decide (hashDatum jen little e.key.v = hashDatum jen little k.v) &&
  decide (datumCmp little e.key.v k.v = .eq)

/-- `HASH_FIND(hh, map, &key, …)`, `src/map.c:208,250,261,274`.  Simplification: the first match in
insertion order; there is at most one (`Verif/Lemmas/Map.lean`). -/
def mapFind (es : List Entry) (k : Datum) : Option Entry := es.find? (keyMatch jen little k)

/-- `_ccs_map_check_datum`, `src/map.c:171-180`: an object that is not a plain identifier is
retained. -/
def checkDatum (r : Refs) (d : Datum) : Call Refs :=
  match d.v with
  | .obj h => if d.id then .ret none r else retain r h
  | _ => .ret none r

/-- `_ccs_map_check_object_and_release`, `src/map.c:19-25`. -/
def releaseDatum (r : Refs) (d : Datum) : Call Refs :=
  match d.v with
  | .obj h => if d.id then .ret none r else release r h
  | _ => .ret none r

/-- `_ccs_map_set_string`, `src/map.c:182-194`: a transient string is copied and every string
loses its flags.  The content of a string that is not transient is assumed not to change. -/
def storedDatum (d : Datum) : Datum :=
  match d.v with
  | .str s => { v := .str s }
  | _ => d

/-- `_ccs_map_remove`, `src/map.c:27-34`, for the entry found with key `k`; the results of the
releases are ignored. -/
def mapRemove (m : MapState) (k : Datum) (e : Entry) : Call MapState :=
  (releaseDatum m.refs e.key).next
    (fun r => rest r) (fun _ r => rest r)
where
  /-- Second half: release the value, unlink. -/
  rest (r : Refs) : Call MapState :=
    (releaseDatum r e.value).next
      (fun r => .ret none ⟨m.entries.eraseP (keyMatch jen little k), r⟩)
      (fun _ r => .ret none ⟨m.entries.eraseP (keyMatch jen little k), r⟩)

/-- `HASH_ADD`, `src/map.c:219-228`: append the new entry. -/
def mapAppend (m : MapState) (k v : Datum) : Call MapState :=
  .ret none ⟨m.entries ++ [⟨storedDatum k, storedDatum v⟩], m.refs⟩

/-- The part of `ccs_map_set` after the lookup, `src/map.c:213-242`. -/
def mapReplace (m : MapState) (old : Option Entry) (k v : Datum) : Call MapState :=
  (checkDatum m.refs k).next
    (fun r => (checkDatum r v).next
      (fun r =>
        match old with
        | some e => (mapRemove jen little ⟨m.entries, r⟩ k e).next
            (fun m => mapAppend m k v) (fun c m => .ret (some c) m)
        | none => mapAppend ⟨m.entries, r⟩ k v)
      (fun c r => (releaseDatum r k).next
        (fun r => .ret (some c) ⟨m.entries, r⟩) (fun _ r => .ret (some c) ⟨m.entries, r⟩)))
    (fun c r => .ret (some c) ⟨m.entries, r⟩)

/-- `ccs_map_set`, `src/map.c:196-242`. -/
def mapSet (m : MapState) (k v : Datum) : Call MapState :=
  match mapFind jen little m.entries k with
  | some e =>
    if datumCmp little v.v e.value.v = .eq then .ret none m else mapReplace jen little m (some e) k v
  | none => mapReplace jen little m none k v

/-- `ccs_map_exist`, `src/map.c:244-253`. -/
def mapExist (m : MapState) (k : Datum) : Bool := (mapFind jen little m.entries k).isSome

/-- `ccs_map_get`, `src/map.c:255-267`. -/
def mapGet (m : MapState) (k : Datum) : Datum :=
  match mapFind jen little m.entries k with
  | some e => e.value
  | none => { v := .none }

/-- `ccs_map_del`, `src/map.c:269-278`. -/
def mapDel (m : MapState) (k : Datum) : Call MapState :=
  match mapFind jen little m.entries k with
  | some e => mapRemove jen little m k e
  | none => .ret (some .invalidValue) m

/-- The loop of `ccs_map_clear`, `src/map.c:367-375`, and of `_ccs_map_del` (destruction),
`src/map.c:36-45`: remove the first entry until there is none. -/
def mapClearLoop (r : Refs) : List Entry → Call MapState
  | [] => .ret none ⟨[], r⟩
  | e :: es =>
    (releaseDatum r e.key).next
      (fun r => (releaseDatum r e.value).next (fun r => mapClearLoop r es)
        (fun _ r => mapClearLoop r es))
      (fun _ r => (releaseDatum r e.value).next (fun r => mapClearLoop r es)
        (fun _ r => mapClearLoop r es))

/-- `ccs_map_clear`, `src/map.c:367-375`. -/
def mapClear (m : MapState) : Call MapState := mapClearLoop m.refs m.entries

/-- Operations of a map's history. -/
inductive MapOp
  | set (k v : Datum)
  | del (k : Datum)
  | clear
  deriving DecidableEq, Repr

/-- One call. -/
def mapStep (m : MapState) : MapOp → Call MapState
  | .set k v => mapSet jen little m k v
  | .del k => mapDel jen little m k
  | .clear => mapClear m

end

/-- Pad with `ccs_none` up to `num` elements (`src/map.c:298-299,325-326,357-360`). -/
def padNone (xs : List Datum) (num : Nat) : List Datum :=
  xs ++ List.replicate (num - xs.length) { v := .none }

/-- `ccs_map_get_keys` with a non-NULL array of `num` elements, `src/map.c:280-304`.  The array is
filled with `current->value`, as in line 297. -/
def mapGetKeys (es : List Entry) (num : Nat) : Out (List Datum × Nat) := do
  refute (num < es.length) .invalidValue
  .ok (padNone (es.map (·.value)) num, es.length)

/-- `ccs_map_get_values` with a non-NULL array of `num` elements, `src/map.c:306-331`. -/
def mapGetValues (es : List Entry) (num : Nat) : Out (List Datum × Nat) := do
  refute (num < es.length) .invalidValue
  .ok (padNone (es.map (·.value)) num, es.length)

/-- `ccs_map_get_pairs` with non-NULL arrays of `num` elements, `src/map.c:333-365`. -/
def mapGetPairs (es : List Entry) (num : Nat) : Out ((List Datum × List Datum) × Nat) := do
  refute (num < es.length) .invalidValue
  .ok ((padNone (es.map (·.key)) num, padNone (es.map (·.value)) num), es.length)

/-- `CCS_OBJECT_TYPE_MAP`, `include/cconfigspace/base.h` (enum `ccs_object_type_e`). -/
def mapType : BitVec 32 := 13#32

/-- Size of one association, `src/map.c:53-57`. -/
def szEntry (e : Entry) : Out Nat := do
  let a ← szDatum e.key.v
  let b ← szDatum e.value.v
  .ok (a + b)

/-- Sum of the sizes of the associations, `src/map.c:53-57`. -/
def szEntries : List Entry → Out Nat
  | [] => .ok 0
  | e :: es => do
    let a ← szEntry e
    let b ← szEntries es
    .ok (a + b)

/-- `_ccs_map_serialize_size`, `src/map.c:47-59,80-87,100-119`; `ud` is the user data. -/
def szMap (handle : BitVec 64) (es : List Entry) (ud : Bytes) : Out Nat := do
  let n ← szEntries es
  .ok (szObj mapType handle + szSize es.length + n + szUserData ud)

/-- One association, `src/map.c:70-76`. -/
def serEntry (little : Bool) (e : Entry) : Wr := serDatum little e.key.v ⨟ serDatum little e.value.v

/-- `_ccs_map_serialize`, `src/map.c:61-78,89-98,121-142`. -/
def serMap (little : Bool) (handle : BitVec 64) (es : List Entry) (ud : Bytes) : Wr :=
  serObj mapType handle ⨟ serSize es.length ⨟ Wr.all (serEntry little) es ⨟ serUserData ud

/-- One pair, `src/map_deserialize.h:29-34`. -/
def dePair (little : Bool) : Rd (Datum × Datum) := do
  let k ← deDatum little
  let v ← deDatum little
  pure (k, v)

/-- Fill the new map, `src/map_deserialize.h:60-67`; the map is released on error. -/
def mapFill (jen : Bytes → BitVec 32) (little : Bool) (m : MapState) :
    List (Datum × Datum) → Out MapState
  | [] => .ok m
  | (k, v) :: ps =>
    match mapSet jen little m k v with
    | .ret none m => mapFill jen little m ps
    | .ret (some e) _ => .err e
    | .ub => .ub

/-- `_ccs_map_deserialize`, `src/map_deserialize.h:18-110`, without a handle map.  Result: the new
map, its former handle and the user data.  `malloc` gets the number of pairs times 32, modulo `2^64`; it is assumed to succeed. -/
def deMap (jen : Bytes → BitVec 32) (little : Bool) (r : Refs) :
    Rd (MapState × BitVec 64 × Bytes) := do
  let o ← deObj
  Rd.lift (refute (o.1 ≠ mapType) .invalidType)
  let n ← deSize
  let ps ← Rd.fill (dePair little) 32 (32 * n % 2 ^ 64) n 0
  let m ← Rd.lift (mapFill jen little ⟨[], r⟩ ps)
  let ud ← deUserData
  pure (m, o.2, ud)

end CCS
