import Verif.Model.BoundInterval
import Verif.Model.Channel

/-!
# Serialization from Python and Ruby

`Object.serialize`, `Object.deserialize` and the wrappers of the callbacks: `bindings/python/cconfigspace/base.py:530-662` and
`bindings/ruby/lib/cconfigspace/base.rb:674-741` and `:816-854`, on top of the entry points of the library (`Model/Channel`).

Simplifications: the format is the binary one; exceptions of the languages that do not come from the library are the code EXTERNAL; the
texts made and read by `json` and `YAML` are parameters; which file a path names is a parameter.
-/

namespace CCS.BoundSerial

open CCS CCS.BoundInterval

/-! ## User data -/

/-- `_get_serialize_callback_wrapper`, `bindings/python/cconfigspace/base.py:606-626`, and `get_serialize_wrapper`,
`bindings/ruby/lib/cconfigspace/base.rb:816-828`: `answer` is the block of the program, told whether it is asked for a size. -/
def saver (answer : Bool → Out Bytes) : SaveCallback where
  size := do
    let bs ← answer true
    .ok bs.length
  fill n := do
    let bs ← answer (n == 0)
    refute (n < bs.length) .invalidValue
    .ok bs

/-- `_json_user_data_serializer`, `base.py:647-649`, and `@yaml_user_data_serializer`, `base.rb:842-844`: the text of the user data and a
terminating NUL. -/
def textSaver (text : Out Bytes) : SaveCallback := saver fun _ => do
  let t ← text
  .ok (t ++ [0#8])

/-- The text found in the data of a message: `ct.cast(serialized, ct.c_char_p).value` (`base.py:652-653`) looks for a NUL whatever the size is;
`serialized.read_string` (`base.rb:847`) stops at the end of the data (`slice(0, serialize_data_size)`, `base.rb:833`). -/
def textOf (lang : Lang) (bs : Bytes) : Out Bytes :=
  match lang with
  | .python => if 0#8 ∈ bs then .ok (bs.takeWhile (· ≠ 0#8)) else .ub
  | .ruby => .ok (bs.takeWhile (· ≠ 0#8))

/-- `_json_user_data_deserializer`, `base.py:651-653`, and `@yaml_user_data_deserializer`, `base.rb:846-848`: what becomes the user data of the
object. -/
def loaded {υ : Type} (lang : Lang) (decode : Bytes → Out υ) (bs : Bytes) : Out υ := do
  let t ← textOf lang bs
  decode t

/-- The same as a callback of the library, through the wrappers `base.py:628-645` and `base.rb:830-840`. -/
def loader {υ : Type} (lang : Lang) (decode : Bytes → Out υ) (bs : Bytes) : Out Unit := do
  let _ ← loaded lang decode bs
  .ok ()

/-! ## Writing -/

/-- What a language makes of an argument that may be left out: in Python an empty string and the number 0 count as left out, in Ruby
only `nil` (and `false`). -/
def pathGiven (lang : Lang) (path : Option Bytes) : Option Bytes :=
  match lang with
  | .python => path.filter (· ≠ [])
  | .ruby => path

@[inherit_doc pathGiven]
def descriptorGiven (lang : Lang) (fd : Option Nat) : Option Nat :=
  match lang with
  | .python => fd.filter (· ≠ 0)
  | .ruby => fd

/-- The C string of a path: `ct.c_char_p(str.encode(path))` (`base.py:543-544`), of which the library reads what precedes a NUL; `:string`
(`base.rb:688`), which refuses a NUL. -/
def cPath (lang : Lang) (path : Bytes) : Out Bytes :=
  match lang with
  | .python => .ok (path.takeWhile (· ≠ 0#8))
  | .ruby => if 0#8 ∈ path then .err .external else .ok path

/-- The size that arrives in a `size_t` when the argument is a Python integer given to a function with a variable number of arguments
(`ct.sizeof(v)`, `base.py:558`): a C `int`, extended with its sign.  Ruby gives a `:size_t` (`base.rb:699`). -/
def sizeArgument (lang : Lang) (n : Nat) : Nat :=
  match lang with
  | .python => ((BitVec.ofNat 32 n).signExtend 64).toNat
  | .ruby => n

/-- What a call of `serialize` does: refused at once, a buffer returned, a file written, a descriptor written to. -/
inductive Sent
  | refused (e : Err)
  | memory (r : Out Bytes)
  | file (path : Nat) (r : FileResult Unit)
  | descriptor (fd : Nat) (r : Out (Bytes × WStop))

/-- What writing meets outside: the byte order of the host, the file a path names, the system, what an unsuccessful call leaves in a file, the
files, and what each descriptor accepts. -/
structure Outside where
  little : Bool
  names : Bytes → Nat
  system : System
  scrap : Bytes
  files : Nat → Option Bytes
  accepts : Nat → List WriteRes

/-- `Object.serialize`, `bindings/python/cconfigspace/base.py:530-560`, and `Object#serialize`,
`bindings/ruby/lib/cconfigspace/base.rb:674-705`; `callback` is the wrapped block of the program or the default one. -/
def serialize (lang : Lang) (w : Outside) (o : Sendable) (callback : SaveCallback) (path : Option Bytes) (fd : Option Nat) : Sent :=
  let options := [SerOption.callback (some callback)]
  match pathGiven lang path, descriptorGiven lang fd with
  | some _, some _ => .refused .invalidValue
  | some p, none =>
    match cPath lang p with
    | .ok p => .file (w.names p) (sendFile w.little w.system w.scrap (some o) (some (w.names p)) options w.files)
    | .err e => .refused e
    | .ub => .memory .ub
  | none, some fd => .descriptor fd (sendDescriptor w.little (some o) options (w.accepts fd))
  | none, none => .memory (do
    let n ← sendSize (some o) true options
    sendMemory w.little (some o) true (sizeArgument lang n) options)

/-! ## Reading -/

/-- A value of a language: its address, and whether each language takes it for true. -/
structure Thing where
  address : BitVec 64
  truth : Lang → Bool

/-- What is given to `deserialize` besides the source: a handle map, the vector and the data of a user defined object, and the wrapped
callback of the program or the default one. -/
structure Reading (V : Type) where
  map : Option Handles
  vector : Option V
  data : Option Thing
  callback : Bytes → Out Unit

/-- `if handle_map`: a Python `Map` has a length (`bindings/python/cconfigspace/map.py:24-28`), so an empty one is false. -/
def mapGiven (lang : Lang) (m : Option Handles) : Option Handles :=
  match lang with
  | .python => m.filter (fun m => !m.isEmpty)
  | .ruby => m

/-- `if data`. -/
def dataGiven (lang : Lang) (d : Option Thing) : Option Thing := d.filter (·.truth lang)

/-- The options, `bindings/python/cconfigspace/base.py:576-588` (each one put before the others) and
`bindings/ruby/lib/cconfigspace/base.rb:716-726`. -/
def readingOptions {V : Type} (lang : Lang) (r : Reading V) : List (DeOption V) :=
  let m := (mapGiven lang r.map).toList.map fun m => DeOption.handleMap (some (true, m))
  let v := r.vector.toList.map fun v => DeOption.vector (some v)
  let d := (dataGiven lang r.data).toList.map fun d => DeOption.data d.address
  let c := [DeOption.callback (some r.callback)]
  match lang with
  | .python => c ++ d ++ v ++ m
  | .ruby => m ++ v ++ d ++ c

/-- What a call of `deserialize` does. -/
inductive Got (α : Type)
  | refused (e : Err)
  | memory (r : Out α)
  | file (r : Out α)
  | descriptor (fd : Nat) (r : FdRead α)

/-- What reading meets outside. -/
structure Inside where
  little : Bool
  names : Bytes → Nat
  system : System
  files : Nat → Option Bytes
  input : Nat → Bytes
  brings : Nat → List ReadRes

/-- `Object.deserialize`, `bindings/python/cconfigspace/base.py:562-602`, and `Object.deserialize`,
`bindings/ruby/lib/cconfigspace/base.rb:707-741`, up to the object of the library.  An empty buffer is false in Python. -/
def deserialize {V α : Type} (lang : Lang) (w : Inside) (rd : DeOpts V → Rd α) (r : Reading V) (path buffer : Option Bytes)
    (fd : Option Nat) : Got α :=
  let options := readingOptions lang r
  match pathGiven lang path, pathGiven lang buffer, descriptorGiven lang fd with
  | none, some bs, none => .memory (takeMemory w.little rd true (some bs) options)
  | some p, none, none =>
    match cPath lang p with
    | .ok p => .file (takeFile w.little w.system rd true (some (w.names p)) options w.files)
    | .err e => .refused e
    | .ub => .file .ub
  | none, none, some fd => .descriptor fd (takeDescriptor w.little rd true options (w.input fd) (w.brings fd))
  | _, _, _ => .refused .invalidValue

end CCS.BoundSerial
