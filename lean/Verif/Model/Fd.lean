import Verif.Model.WireObj

/-!
# Serialization through file descriptors

Models `src/cconfigspace.c:388-467` (`_ccs_object_serialize_file_descriptor`) and
`src/cconfigspace.c:805-947` (`_ccs_object_deserialize_file_descriptor`), binary format.  The results of
`write` and `read` are an arbitrary list (the schedule); a call that has consumed the whole schedule
without returning is still running.
-/

namespace CCS

/-! ## Writing -/

/-- Result of one `write(fd, buffer, size)`. -/
inductive WriteRes
  /-- The descriptor accepts `n` bytes, or all that is offered if that is less. -/
  | took (n : Nat)
  | eintr
  | eagain
  /-- Any other `errno`. -/
  | fail
  deriving DecidableEq, Repr

/-- Where a write loop stops. -/
inductive WStop
  /-- Not returned: the schedule is exhausted. -/
  | pending
  /-- Returned `CCS_RESULT_AGAIN` with these bytes still in the buffer. -/
  | again (rest : Bytes) (sched : List WriteRes)
  /-- `CCS_RESULT_ERROR_SYSTEM`. -/
  | failed (sched : List WriteRes)
  /-- Left the loop: the buffer is empty. -/
  | finished (sched : List WriteRes)
  deriving DecidableEq, Repr

/-- The `do … while` of `src/cconfigspace.c:445-459`, from a buffer: the bytes handed to the
descriptor and where it stops. `nb` is `opts.ppfd_state != NULL`. -/
def writeLoop (nb : Bool) : Bytes → List WriteRes → Bytes × WStop
  | _, [] => ([], .pending)
  | buf, .eintr :: s => writeLoop nb buf s
  | buf, .eagain :: s => if nb then ([], .again buf s) else writeLoop nb buf s
  | _, .fail :: s => ([], .failed s)
  | buf, .took n :: s =>
    let k := min n buf.length
    if buf.length - k = 0 then (buf.take k, .finished s)
    else
      let r := writeLoop nb (buf.drop k) s
      (buf.take k ++ r.1, r.2)

/-- Blocking call: announced size, serialization in a buffer of that size, write loop.  `free(base)` is
always of the buffer allocated by the call. -/
def fdWrite (little : Bool) (obj : Wr) (objSize : Nat) (sched : List WriteRes) :
    Out (Bytes × WStop) := do
  let enc ← serMemory little obj (szHeader + objSize)
  .ok (writeLoop false enc sched)

/-- Content of `pstate->base`. -/
inductive BasePtr
  | null
  /-- A block allocated by the function. -/
  | owned
  /-- Not NULL and not a valid block: what uninitialised memory may contain. -/
  | junk
  deriving DecidableEq, Repr

/-- The state returned to the caller of a non-blocking serialization. -/
structure WState where
  base : BasePtr
  rest : Bytes
  deriving DecidableEq, Repr

/-- Result code of the non-blocking call. -/
inductive NbCode
  | success | again | system
  /-- The value of the uninitialised variable `res`. -/
  | indeterminate
  deriving DecidableEq, Repr

/-- How a non-blocking call ends. -/
structure NbWrite where
  delivered : Bytes
  /-- `none`: still running. -/
  code : Option NbCode
  state : Option WState
  sched : List WriteRes
  deriving DecidableEq, Repr

/-- `free(pstate->base)`, `src/cconfigspace.c:462`. -/
def freeBase (b : BasePtr) (r : NbWrite) : Out NbWrite :=
  match b with
  | .junk => .ub
  | _ => .ok r

/-- The end of the function from the loop on; `res` is the value of the variable `res`. -/
def nbWriteEnd (res : NbCode) (st : WState) (sched : List WriteRes) : Out NbWrite :=
  match writeLoop true st.rest sched with
  | (d, .pending) => .ok ⟨d, none, some st, []⟩
  | (d, .again rest s) => .ok ⟨d, some .again, some ⟨st.base, rest⟩, s⟩
  | (d, .failed s) => freeBase st.base ⟨d, some .system, none, s⟩
  | (d, .finished s) => freeBase st.base ⟨d, some res, none, s⟩

/-- Non-blocking call, `src/cconfigspace.c:403-466`; `enc` is the serialized object.  On a start,
`pstate` is allocated (`malloc`) and `pstate->base` is not written: `fresh` is what that memory contains.
On a restart with `base` NULL the object is serialized again in a new buffer. -/
def nbWrite (fresh : BasePtr) (enc : Bytes) (st : Option WState) (sched : List WriteRes) :
    Out NbWrite :=
  match st with
  | none => nbWriteEnd .success ⟨fresh, enc⟩ sched
  | some st =>
    match st.base with
    | .null => nbWriteEnd .success ⟨.owned, enc⟩ sched
    | _ => nbWriteEnd .indeterminate st sched

/-! ## Reading -/

/-- Result of one `read(fd, buffer, size)`. -/
inductive ReadRes
  /-- Up to `n` of the bytes sent by the peer, and at most what is asked; 0 bytes at the end of the
  stream. -/
  | got (n : Nat)
  | eintr
  | eagain
  | fail
  deriving DecidableEq, Repr

inductive RStop
  | pending
  /-- `CCS_RESULT_AGAIN`, with this number of bytes still wanted. -/
  | again (want : Nat) (sched : List ReadRes)
  | failed (sched : List ReadRes)
  | finished (sched : List ReadRes)
  deriving DecidableEq, Repr

/-- `_ccs_object_deserialize_file_descriptor_read_loop`, `src/cconfigspace.c:805-826`: the bytes stored
in the buffer and where it stops.  `input` is everything the peer will send before closing. -/
def readLoop (nb : Bool) : Nat → Bytes → List ReadRes → Bytes × RStop
  | _, _, [] => ([], .pending)
  | want, input, .eintr :: s => readLoop nb want input s
  | want, input, .eagain :: s =>
    if nb then ([], .again want s) else readLoop nb want input s
  | _, _, .fail :: s => ([], .failed s)
  | want, input, .got n :: s =>
    let chunk := input.take (min n want)
    if want - chunk.length = 0 then (chunk, .finished s)
    else
      let r := readLoop nb (want - chunk.length) (input.drop chunk.length) s
      (chunk ++ r.1, r.2)

/-- Result of a deserialization from a descriptor: bytes consumed from the stream, and the result if it
has returned. -/
structure FdRead (α : Type) where
  consumed : Bytes
  res : Option (Out α)
  sched : List ReadRes

/-- Second phase, `src/cconfigspace.c:924-941`: the rest of the object is read and decoded. -/
def fdReadBody (obj : Rd α) (want : Nat) (hdr : Bytes) (input : Bytes) (sched : List ReadRes) :
    FdRead α :=
  match readLoop false want input sched with
  | (d, .finished s) => ⟨hdr ++ d, some ((obj d) >>= fun p => .ok p.1), s⟩
  | (d, .failed s) => ⟨hdr ++ d, some (.err .system), s⟩
  | (d, .again _ s) => ⟨hdr ++ d, none, s⟩
  | (d, .pending) => ⟨hdr ++ d, none, []⟩

/-- Blocking call, `src/cconfigspace.c:839-947`.  An announced size smaller than the header makes
`base_size - offset` wrap, and the rest is read past the end of the buffer. -/
def fdRead (little : Bool) (obj : Rd α) (input : Bytes) (sched : List ReadRes) : FdRead α :=
  match readLoop false szHeader input sched with
  | (d, .finished s) =>
    match deHeader little d with
    | .ok ((size, _), _) =>
      if size.toNat < szHeader then ⟨d, some .ub, s⟩
      else fdReadBody obj (size.toNat - szHeader) d (input.drop szHeader) s
    | .err e => ⟨d, some (.err e), s⟩
    | .ub => ⟨d, some .ub, s⟩
  | (d, .failed s) => ⟨d, some (.err .system), s⟩
  | (d, .again _ s) => ⟨d, none, s⟩
  | (d, .pending) => ⟨d, none, []⟩

/-- The state returned to the caller of a non-blocking deserialization: bytes received so far, and in
the second phase (`base_size != 0`) how many follow the header. -/
inductive RState
  | header (hdr : Bytes)
  | body (hdr : Bytes) (bodySize : Nat) (got : Bytes)

inductive NbRead (α : Type)
  | again (st : RState) (consumed : Bytes) (sched : List ReadRes)
  | done (r : FdRead α)

/-- Second phase of the non-blocking call. -/
def nbReadBody (obj : Rd α) (bodySize : Nat) (hdr got : Bytes) (input : Bytes)
    (sched : List ReadRes) : NbRead α :=
  match readLoop true (bodySize - got.length) input sched with
  | (d, .finished s) => .done ⟨d, some ((obj (got ++ d)) >>= fun p => .ok p.1), s⟩
  | (d, .failed s) => .done ⟨d, some (.err .system), s⟩
  | (d, .again _ s) => .again (.body hdr bodySize (got ++ d)) d s
  | (d, .pending) => .done ⟨d, none, []⟩

def NbRead.pre (d : Bytes) : NbRead α → NbRead α
  | .again st c s => .again st (d ++ c) s
  | .done r => .done { r with consumed := d ++ r.consumed }

/-- First phase of the non-blocking call.  The buffer also holds the state; `moved` says whether
`realloc` (`src/cconfigspace.c:909`) moves it, in which case `pstate` dangles and the next line writes
through it. -/
def nbReadHeader (little : Bool) (obj : Rd α) (moved : Bool) (hdr : Bytes) (input : Bytes)
    (sched : List ReadRes) : NbRead α :=
  match readLoop true (szHeader - hdr.length) input sched with
  | (d, .finished s) =>
    match deHeader little (hdr ++ d) with
    | .ok ((size, _), _) =>
      if moved then .done ⟨d, some .ub, s⟩
      else if size.toNat < szHeader then .done ⟨d, some .ub, s⟩
      else
        (nbReadBody obj (size.toNat - szHeader) (hdr ++ d) [] (input.drop d.length) s).pre d
    | .err e => .done ⟨d, some (.err e), s⟩
    | .ub => .done ⟨d, some .ub, s⟩
  | (d, .failed s) => .done ⟨d, some (.err .system), s⟩
  | (d, .again _ s) => .again (.header (hdr ++ d)) d s
  | (d, .pending) => .done ⟨d, none, []⟩

/-- Non-blocking call, started (`none`) or restarted with the returned state. -/
def nbRead (little : Bool) (obj : Rd α) (moved : Bool) (st : Option RState) (input : Bytes)
    (sched : List ReadRes) : NbRead α :=
  match st with
  | none => nbReadHeader little obj moved [] input sched
  | some (.header hdr) => nbReadHeader little obj moved hdr input sched
  | some (.body hdr n got) => nbReadBody obj n hdr got input sched

/-- A caller that calls again each time it is told to, at most `fuel` times. -/
def nbDrive (little : Bool) (obj : Rd α) (moved : Bool) : Nat → Option RState → Bytes →
    List ReadRes → FdRead α
  | fuel, st, input, sched =>
    match nbRead little obj moved st input sched with
    | .done r => r
    | .again st' d s =>
      match fuel with
      | 0 => ⟨d, none, s⟩
      | fuel + 1 =>
        let r := nbDrive little obj moved fuel (some st') (input.drop d.length) s
        { r with consumed := d ++ r.consumed }

end CCS
