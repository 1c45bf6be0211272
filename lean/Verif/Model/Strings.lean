import Verif.Model.Map

/-!
# Where strings live

Models the memory of the strings that `src/map.c` and `src/parameter_string.c` keep.  The other modules
represent a string by its content; here a string is a pointer into an allocated block, blocks are freed and the
buffers of the caller change.  Reading a block that was freed is undefined.  Memory is assumed available, and the
references held by keys and values that are objects are left to `Verif/Model/Map.lean`.
-/

namespace CCS.Mem

open CCS

/-- A `const char *` that is not NULL: a block and the number of the string in that block. -/
structure Ptr where
  block : Nat
  slot : Nat
  deriving DecidableEq, Repr

/-- The allocated blocks: the strings each of them contains, up to and without the terminating NUL.  Blocks are
numbered in the order of allocation (`malloc`, `calloc`); an address is never used again. -/
structure Heap where
  blocks : Nat → Option (List Bytes)
  next : Nat

/-- Reading a string (`strlen`, `strcmp`, `strcpy`, `memcpy`); `none` is undefined behaviour. -/
def Heap.read (h : Heap) (p : Ptr) : Option Bytes :=
  match h.blocks p.block with
  | some texts => texts[p.slot]?
  | none => none

/-- `malloc` or `calloc` of a block in which the strings are then written. -/
def Heap.alloc (h : Heap) (texts : List Bytes) : Heap :=
  ⟨fun b => if b = h.next then some texts else h.blocks b, h.next + 1⟩

/-- `free`. -/
def Heap.free (h : Heap) (b : Nat) : Heap := ⟨fun x => if x = b then none else h.blocks x, h.next⟩

/-- The caller writes another string in one of its buffers. -/
def Heap.rewrite (h : Heap) (b : Nat) (s : Bytes) : Heap := ⟨fun x => if x = b then some [s] else h.blocks x, h.next⟩

/-- The pair (`type`, `value`) of a `ccs_datum_t`, `include/cconfigspace/base.h`, with the pointer of a string.  The
values of the other types are those of `CCS.Value`. -/
inductive Word
  | str (p : Option Ptr)
  | plain (v : Value)
  deriving DecidableEq, Repr

/-- A `ccs_datum_t` with the flag `CCS_DATUM_FLAG_TRANSIENT`, `include/cconfigspace/base.h:337-344`. -/
structure Cell where
  w : Word
  transient : Bool := false
  deriving DecidableEq, Repr

/-- The value a datum stands for now. -/
def Word.load (h : Heap) : Word → Option Value
  | .str none => some (.str none)
  | .str (some p) =>
    match h.read p with
    | some s => some (.str (some s))
    | none => none
  | .plain (.str _) => none
  | .plain v => some v

section
variable (jen : Bytes → BitVec 32) (little : Bool)

/-- `_hash_datum`, `src/datum_hash.h:71-95`: the characters of a string are read. -/
def hashOf (h : Heap) (w : Word) : Option (BitVec 32) :=
  match w.load h with
  | some v => some (hashDatum jen little v)
  | none => none

/-- `_datum_cmp`, `src/datum_hash.h:34-61`: two equal pointers are not followed. -/
def compare (h : Heap) (a b : Word) : Option Ordering :=
  match a, b with
  | .str p, .str q =>
    if p = q then some .eq
    else match p, q with
      | none, _ => some .lt
      | _, none => some .gt
      | some p, some q =>
        match h.read p, h.read q with
        | some s, some t => some (lexCmp s t)
        | _, _ => none
  | .plain x, .plain y => some (datumCmp little x y)
  | .str _, .plain y => some (if 4 < y.tag then .lt else .gt)
  | .plain x, .str _ => some (if x.tag < 4 then .lt else .gt)

/-- An element of a table: `_ccs_map_datum_t`, `src/map.c:7-12`, or `_ccs_hash_datum_t`, `src/datum_hash.h:97-101`,
with the block it lies in and the hash kept in its `UT_hash_handle`.  The elements of a parameter have no value. -/
structure Record where
  block : Nat
  hash : BitVec 32
  key : Cell
  value : Cell := { w := .plain .none }
  deriving DecidableEq, Repr

/-- `HASH_FIND`, `src/map.c:208,250,261,274`, `src/parameter_string.c:143-145`: the keys with the hash looked for are
compared.  Simplification: they are visited in the order of insertion. -/
def find (h : Heap) (k : Word) (hash : BitVec 32) : List Record → Option (Option Record)
  | [] => some none
  | r :: rs =>
    if r.hash = hash then
      match compare little h r.key.w k with
      | none => none
      | some .eq => some (some r)
      | some _ => find h k hash rs
    else find h k hash rs

/-- The hash of the key, then the lookup (`HASH_FIND` computes the hash with `HASH_FUNCTION`, `src/datum_uthash.h:8-12`). -/
def search (h : Heap) (k : Word) (rs : List Record) : Option (Option Record) :=
  match hashOf jen little h k with
  | some hash => find little h k hash rs
  | none => none

/-- The memory: the blocks, the elements of the table and the blocks that belong to the caller. -/
structure World where
  heap : Heap
  records : List Record
  caller : List Nat

/-! ## Maps -/

/-- What `_ccs_map_check_datum` measures and `_ccs_map_set_string` copies, `src/map.c:171-194`: the characters of a
transient string (`some none`: nothing to copy). -/
def copied (h : Heap) (c : Cell) : Option (Option Bytes) :=
  match c.w with
  | .str (some p) =>
    if c.transient then
      match h.read p with
      | some s => some (some s)
      | none => none
    else some none
  | _ => some none

/-- `_ccs_map_set_string`, `src/map.c:182-194`: a string loses its flags and, if it was copied, designates the copy. -/
def placed (c : Cell) (copy : Option Bytes) (p : Ptr) : Cell :=
  match c.w, copy with
  | .str _, some _ => { w := .str (some p) }
  | .str _, none => { w := c.w }
  | .plain _, _ => c

/-- `_ccs_map_remove`, `src/map.c:27-34`: unlink and free the element. -/
def removeRecord (h : Heap) (rs : List Record) (r : Record) : Heap × List Record :=
  (h.free r.block, rs.filter fun x => decide (x.block ≠ r.block))

/-- The old element goes before the new one is added, `src/map.c:225-226`. -/
def removeOld (h : Heap) (rs : List Record) : Option Record → Heap × List Record
  | some r => removeRecord h rs r
  | none => (h, rs)

/-- `HASH_ADD`, `src/map.c:227`: the hash of the key that was stored is computed. -/
def addRecord (w : World) (h : Heap) (rs : List Record) (b : Nat) (k v : Cell) : Call World :=
  match hashOf jen little h k.w with
  | some hash => .ret none { w with heap := h, records := rs ++ [⟨b, hash, k, v⟩] }
  | none => .ub

/-- The end of `ccs_map_set`, `src/map.c:213-228`: one block for the element and the copies. -/
def replace (w : World) (old : Option Record) (k v : Cell) : Call World :=
  match copied w.heap k, copied w.heap v with
  | some ck, some cv =>
    let b := w.heap.next
    let kept := removeOld (w.heap.alloc [ck.getD [], cv.getD []]) w.records old
    addRecord jen little w kept.1 kept.2 b (placed k ck ⟨b, 0⟩) (placed v cv ⟨b, 1⟩)
  | _, _ => .ub

/-- `ccs_map_set`, `src/map.c:196-242`. -/
def setEntry (w : World) (k v : Cell) : Call World :=
  match search jen little w.heap k.w w.records with
  | none => .ub
  | some none => replace jen little w none k v
  | some (some r) =>
    match compare little w.heap v.w r.value.w with
    | none => .ub
    | some .eq => .ret none w
    | some _ => replace jen little w (some r) k v

/-- `ccs_map_get`, `src/map.c:255-267`; `none` is undefined behaviour. -/
def getEntry (w : World) (k : Cell) : Option Cell :=
  match search jen little w.heap k.w w.records with
  | none => none
  | some none => some { w := .plain .none }
  | some (some r) => some r.value

/-- `ccs_map_del`, `src/map.c:269-278`. -/
def delEntry (w : World) (k : Cell) : Call World :=
  match search jen little w.heap k.w w.records with
  | none => .ub
  | some none => .ret (some .invalidValue) w
  | some (some r) => .ret none { w with heap := (removeRecord w.heap w.records r).1, records := (removeRecord w.heap w.records r).2 }

/-- `ccs_map_clear`, `src/map.c:367-375`. -/
def clearEntries (w : World) : Call World := .ret none { w with heap := w.records.foldl (fun h r => h.free r.block) w.heap, records := [] }

/-- `ccs_map_get_pairs`, `src/map.c:333-365`, with enough room: the keys and values, as they are stored. -/
def pairs (w : World) : List (Cell × Cell) := w.records.map fun r => (r.key, r.value)

/-- What a program does with one map: the calls, and what it does with its own buffers. -/
inductive Act
  | buffer (s : Bytes)
  | rewrite (b : Nat) (s : Bytes)
  | free (b : Nat)
  | set (k v : Cell)
  | del (k : Cell)
  | clear
  deriving DecidableEq, Repr

/-- A buffer of the caller is allocated, rewritten or freed; the blocks of the library (`src/map.c:219`,
`src/parameter_string.c:152`) are not the caller's to write. -/
def ownBuffer (w : World) : Act → Call World
  | .buffer s => .ret none { w with heap := w.heap.alloc [s], caller := w.heap.next :: w.caller }
  | .rewrite b s => if b ∈ w.caller then .ret none { w with heap := w.heap.rewrite b s } else .ub
  | .free b => if b ∈ w.caller then .ret none { w with heap := w.heap.free b, caller := w.caller.filter fun x => decide (x ≠ b) } else .ub
  | _ => .ret none w

/-- One action of a program; the calls are those of `src/map.c`. -/
def act (w : World) : Act → Call World
  | .set k v => setEntry jen little w k v
  | .del k => delEntry jen little w k
  | .clear => clearEntries w
  | a => ownBuffer w a

/-! ## String parameters -/

/-- The body of the loop of `_ccs_parameter_string_check_values`, `src/parameter_string.c:139-172`, for a string: if no
string with that content is stored yet, a copy is, whatever the flags.  The first component is the datum returned. -/
def keep (w : World) (c : Cell) : Call (Cell × World) :=
  match c.w with
  | .plain _ => .ret none ({ w := .plain .inactive }, w)
  | .str p =>
    match search jen little w.heap c.w w.records with
    | none => .ub
    | some (some r) => .ret none (r.key, w)
    | some none =>
      let b := w.heap.next
      match p with
      | none =>
        match hashOf jen little w.heap (.str none) with
        | some hash => .ret none ({ w := .str none },
            { w with heap := w.heap.alloc [], records := w.records ++ [{ block := b, hash := hash, key := { w := .str none } }] })
        | none => .ub
      | some p =>
        match w.heap.read p with
        | none => .ub
        | some s =>
          match hashOf jen little (w.heap.alloc [s]) (.str (some ⟨b, 0⟩)) with
          | some hash => .ret none ({ w := .str (some ⟨b, 0⟩) },
              { w with heap := w.heap.alloc [s],
                       records := w.records ++ [{ block := b, hash := hash, key := { w := .str (some ⟨b, 0⟩) } }] })
          | none => .ub

/-- A string parameter and the values at its position in the bindings that use it. -/
structure Bound where
  world : World
  held : List Cell

/-- What a program does with one string parameter: its own buffers, `ccs_parameter_validate_value`, and
`_ccs_binding_set_value`, `src/binding_internal.h:52-63`, on the binding number `i`. -/
inductive Use
  | own (a : Act)
  | validate (c : Cell)
  | put (i : Nat) (c : Cell)
  deriving DecidableEq, Repr

/-- `_ccs_binding_set_value`, `src/binding_internal.h:52-63` (and `:101-106`, `src/configuration.c:123-131`): only
transient values go through the parameter; `ccs_parameter_validate_value`, `src/parameter.c:83-97`. -/
def use (b : Bound) : Use → Call Bound
  | .own a =>
    match ownBuffer b.world a with
    | .ret c w => .ret c { b with world := w }
    | .ub => .ub
  | .validate c =>
    match keep jen little b.world c with
    | .ret e r => .ret e { b with world := r.2 }
    | .ub => .ub
  | .put i c =>
    if b.held.length ≤ i then .ret (some .outOfBounds) b
    else if c.transient then
      match keep jen little b.world c with
      | .ret _ r =>
        match c.w with
        | .str _ => .ret none { world := r.2, held := b.held.set i r.1 }
        | .plain _ => .ret (some .invalidValue) { b with world := r.2 }
      | .ub => .ub
    else .ret none { b with held := b.held.set i c }

end

end CCS.Mem
