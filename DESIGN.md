# Formal model of CCS (argonne-lcf/CCS) in Lean 4

## 1. Layout

* `lean/Verif/Model/*.lean`   executable model, one module per C translation unit (or group of them). Each definition
  cites the `/repo` file and lines it models and says where it simplifies.
* `lean/Verif/Spec/*.lean`    small specifications (sets of reals and integers, finite maps, dominance, graphs, ...),
  written without the helpers of the model wherever possible.
* `lean/Verif/Lemmas/*.lean`  helper lemmas.
* `lean/Verif/Props/*.lean`   the property theorems, named after the property they settle, with non-vacuity `example`s.
* `properties.jsonl`          the English properties (C01, C02, ...).
* `MANIFEST.json`             property -> theorem names, status, note.
* `seeded/LOG.jsonl`          wrong programs tried against the theorems, and what failed.

A theorem name with the suffix `_partial` proves part of a property; the note of the property says what is missing. When
the code violates a property, the model keeps the behaviour of the code, the negation is proved with a witness (or for all
the inputs concerned), and the part that does hold is proved next to it.

## 2. Modelling conventions

* **Outcomes.** A C function that can fail returns `Out a = ok a | err code | ub`. `ub` marks undefined behaviour of the C
  program (signed overflow, shift by at least the width, access outside of an array, null or dangling pointer, call of
  the GSL error handler). It is never assumed away: either a theorem shows it unreachable, or it is stated as a hypothesis,
  or a witness shows it reachable.
* **Loops that may not end** take `fuel` and return `Option (Out a)`; `none` means that the call has not returned after
  that many turns. Termination theorems give an explicit number of turns.
* **Integers.** `ccs_int_t` values are bit vectors or mathematical integers with explicit range checks where C arithmetic is
  performed. Wire encoders use `BitVec 32/64`. Sizes are `Nat`; where the code truncates a `size_t` to `unsigned int` the
  truncation is modelled, and statements that need sizes below 2^32 or 2^64 say so.
* **Floats.** A double is its 64-bit pattern. Comparisons are modelled exactly from the pattern (NaN unordered,
  `-0.0 == 0.0`). Arithmetic is a parameter `FloatOps` (add, sub, mul, div, rem): theorems that do not mention
  `Spec.ieee` hold for any arithmetic. `Spec.ieee` (`Spec/Ieee.lean`) is IEEE-754 binary64 round-to-nearest-even, defined on
  exact rationals, and its rounding properties are proved in `Lemmas/Ieee.lean` and `Lemmas/Restore.lean`. The functions
  log, exp, floor and those of GSL are parameters with no assumption unless the theorem states one.
* **Pointers.** Objects are natural-number handles or values; pointer order is the order on handles. `malloc` is assumed to
  succeed: out-of-memory paths are not modelled.
* **Environment.** Random numbers, results of `read`/`write`, user callbacks and the contents of uninitialised memory are
  universally quantified inputs.
* **Hash functions.** The byte hash (`HASH_JEN`) is an arbitrary function of the bytes. uthash tables are represented by
  their list of entries in insertion order (the order `HASH_ITER` visits); utarray by lists.
* **Byte order.** The byte order of the writing and of the reading host are parameters everywhere.

## 3. Trusted base

* The Lean 4 kernel. The theorems depend on the axioms `propext`, `Classical.choice` and `Quot.sound` at most, and no other
  was added. `decide +kernel` is used on closed terms (witnesses and examples): the kernel evaluates these.
* The correspondence between the C code and the model is by reading: no tool extracts one from the other and the code
  was never run. Section 6 lists which functions have a model.
* The statements in `Spec/` and `Props/`, which are to be read against the English properties.
* Assumptions in the model itself: memory allocation succeeds; objects are used from one thread at a time; user callbacks do
  not call back into the object being processed unless the statement covers it; GSL functions keep their documented contracts
  where a theorem says so.

Not modelled: the parts of the Python and Ruby bindings that section 4 does not name, among them the getters of parameters, distributions and generators; the interpreters, `ctypes` and `ffi`
themselves, beyond the conversions of values and integers written down with each model; the Kokkos connector compiled without assertions; internals of GSL, uthash and utarray; the accuracy of
log/exp/normal quantiles; concurrent use, except of error stacks (C123, C124); the functions listed as not covered in section 6.

## 4. Model and proof method, by area

**Serialization** (`Wire`, `WireObj`, `Datum`, `Interval`; C01-C10). A writer takes the space left and gives bytes or
NOT_ENOUGH_DATA; a reader consumes a prefix of a byte list. LEB128 by induction on the value; zigzag by bit extensionality;
composition by the law `read (write x ++ tail) = (x, tail)`; truncation by "a reader that succeeds on `p ++ q` and consumes
more than `p` fails on `p`".

**File descriptors** (`Fd`; C15-C17). The calls are state machines driven by an arbitrary schedule of system call results.

**Objects** (`Object`; C18-C20). State machines over histories of retain, release, callback attachment and error macros;
invariants by induction over histories.

**Datums, maps, intervals** (`Datum`, `Map`, `Interval`; C14, C21-C31, C79). Order by cases; maps by refinement to a finite
function; intervals against sets of real numbers.

**Parameters** (`Param`; C13, C32-C38). Lists and byte-addressed memory; sampling as a bounded retry over an arbitrary
stream of draws.

**Expressions** (`Expr`; C11, C39-C47). Mutually recursive evaluation over trees; laws by structural induction and
operand case analysis.

**Joint sampling, configuration spaces** (`Joint`, `Space`; C48-C56, C78). A space is the result of any list of calls;
invariants by induction over the calls. The evaluation order is Kahn's algorithm, proved against reachability in the graph of
conditions.

**Bindings, evaluations, tuners** (`Binding`, `Evaluation`, `Tuner`; C57-C67, C80, C81). Refinement to a vector of values;
dominance stated on real numbers; the front stated as the positions of the history that nothing in it dominates.

**Trees** (`Tree`, `TreeSpace`, `TreeWire`; C12, C68-C73, C82). A heap of nodes; forests reachable by the calls satisfy a
structural invariant; positions, sampling and lazily built trees follow from it.

**Distributions** (`Roulette`, `Distribution`, `DistWire`; C74-C77, C83-C86). Generator states are explicit
(`Machine σ`), memory is explicit for the three layouts; arithmetic is IEEE where rounding matters.

**Serialization of spaces and generators** (`SpaceWire`; C87, C88). Reading a configuration space replays calls on a new
space, so its outcome is stated as the outcome of those calls made again (`Spec.recreation`, `Spec.perform`), with the
variables of the expressions moved to the new parameters. Stage by stage (parameters, conditions, distributions, clauses) the
replay is shown to give a copy of the space; evaluation, activity, the check and the draws are shown to be the same on a copy.

**Serialization of runs** (`RunWire`; C89-C92). Readers of bindings, spaces, evaluations and tuners work on the handle map of the
options, a finite function. The outcome of reading what was written is computed as a function of the map (`attach`,
`evalOutcome`, `historyOutcome`), then compared with the relation `Attached` of the specification; the history by induction with the
invariant that the map has the spaces and the evaluations read so far. That a tuner read back goes on the same is a simulation
between two runs of `tell` (`movedTuner`).

**Tree runs** (`TreeRun`, `TreeRunWire`; C93-C98). Tree evaluations and tuners reuse the models of evaluations and tuners; what is
different is where configurations come from (`TreeSource`). Serialization reuses the handle map and the tree reader of C12: the tree
read is the same up to its place among the trees of the process (`Replanted`), and everything asked of it follows a walk from
its root, so that the answers are the same. What dynamic tree spaces write and what is read differ by one blob, which is followed
through the reader of tree tuners.

**User defined tuners** (`UserTuner`; C99-C102). The callbacks are arbitrary functions on an arbitrary state; which of them run is
stated with callbacks that take notes (`Spec.recording`). Writing and reading reuse the part of C92 and C96 that follows the type of
the tuner; the state of the user is threaded through the callbacks. What any message can make of the optima follows the handle
map through the readers.

**Ownership** (`Own`; C103-C106). All the objects of a program at once, as a heap of cells with a count and the references the
object stores; creation, mutation, sampling, tuner, map and tree calls of every kind as functions on it, with what they check about
values as parameters, so that every error path is covered. Releases propagate by a list of pending tasks, the calls
of the running destructors. The invariant (counts, kinds, optima in histories, parents of trees, a rank for nested
objects) is kept while tasks are pending (`During`), by each function (`OwnOps` to `OwnStep`) and by programs (`OwnRun`). That
nothing unreachable is left is proved from the counts: an object nobody can reach has a holder nobody can reach, kinds and ranks
decrease along fields, and only maps go round in circles (`OwnGarbage`).

**Entry points** (`Channel`; C107-C112). The options, the four operations over an abstract object that announces and writes bytes, files
as a partial map with all answers of the system, the choice among the nineteen readers of the other modules, user data callbacks, and
what `*object_ret` holds after each outcome. The channels are compared through the one message that C04 and C15 give; the generic reader is
equal to the reader of a kind because every reader starts with the object header and refuses other types.

**Kokkos connector, default distributions** (`Kokkos`, `Default`; C113-C120). The callbacks as functions on the global state of the connector; regions,
fences and evaluations are followed through all nested sequences of callbacks by induction.

**Reading back** (`Getters`; C121, C122). The common shape of list getters (which outputs are asked for, how long the array is) against a
specification of what may be written; the content of spaces against the record of the calls that succeeded.

**Error stacks** (`Stacks`; C123-C125). A heap of counted stacks and one slot per thread, schedules of calls of any number of threads; ownership by
an invariant, independence by projection to the one-thread model of C20.

**Text of expressions** (`Text`; C126). The tables of the grammar, the printing functions of the bindings and a shift-reduce parser on
terminals whose conflicts are settled by the tables. What is read is computed by induction over the expression for any stack of pending operators.

**Arguments of the entry points** (`Api`; C127). For each of the 330 documented public functions, the ordered list of the checks it makes on its own
handles, pointers and counts and of its plain writes through result pointers (functions called with the same arguments are followed), and, separately
(`Spec/Api`), the list of refusals its header announces. The tables were extracted by script and reviewed by hand; where the header names an argument that
does not exist, the reading chosen is given in `Spec/Api`. All other steps of a call are one `may` step answered by an oracle, so that the theorems hold
in every state. Not modelled here: dangling handles, wrong but non-`NULL` pointers.

**Registry of the bindings** (`Registry`; C128, C129). One object: what the library points at and what the interpreter keeps alive for it. Using what is
not kept alive is undefined. Histories by an invariant, destruction by the shape of the list of hooks. Closures and data the program itself also holds are
not counted (they would live longer).

**Wrappers of the bindings** (`Wrappers`; C130, C131). Two tables extracted from the sources: which share of a reference each C function gives, and how
each binding makes an object of it; the count of one object is followed through any sequence of calls and collections.

**Values of Python** (`PyDatum`; C132). The two conversions of class `Datum` and the operations of class `Map` on top of the model of maps (C24-C26);
dictionaries are functions, compared by an invariant over histories.

**Callbacks in Python and Ruby** (`Callbacks`; C133, C134). The wrappers that fill arrays, on arrays of bytes where a write outside is undefined; the
wrappers of the state as callbacks of the model of user defined tuners (C99-C102). Trusted about `ctypes` and `FFI`: indexing a `c_void_p`, using an undefined name
and calling a missing method raise exceptions; `FFI::Pointer#[]` advances by elements of one byte on the pointers callbacks get.

**Strings in memory** (`Strings`; C135, C136). Maps and string parameters once more, with pointers into blocks that are allocated, freed and, for the
buffers of the program, rewritten; reading a freed block is undefined. The invariant says where each stored pointer leads (its own block, or
a buffer that the rest of the program leaves alone). This also justifies the representation of strings by their content in the other modules, and shows where it
fails (keys taken from the map). Not modelled: reuse of addresses, reference counts of objects in maps (C26), exhaustion of memory.

**Values of Ruby** (`RbDatum`; C137). As `PyDatum`, with objects and their references, and the symbols of the flags as a bitmask. Trusted about `FFI`: the
numbering of a bitmask and what it does with unknown symbols and bits, the range of an `int64` field, and that `read_string` gives a binary string.

**Exceptions of Python** (`PyErrors`; C138). Programs are trees: a program raises, or calls a function of the library that runs a callback, itself a program, and
handles the exception or not. The error stacks are those of `Stacks`, with one thread. Trusted about `ctypes`: a callback that raises writes no result, and `c_char_p` refuses a
`str`. Not modelled: cycles of references between exceptions and frames, which delay the release of a stack.

**What is read** (`Props/Readable`, `Lemmas/Readable`, `Lemmas/ReadableSpace`; C86). No new model: the readers of the other modules, on arbitrary bytes. Each theorem
gives a history of creations and calls with the same result. For spaces the history uses a memory with the parameters read at the addresses given by the reading process,
which must be different for different parameters.

**Probabilities** (`Spec/Chance`, `Lemmas/Near`, `Lemmas/Chance`, `Lemmas/Mix`, `Props/Chance`, `Props/Mix`; C139, C140, C141). No new model: the roulette search, mixtures and the walk down a tree, with IEEE arithmetic.
The draws that lead to an outcome are proved to be exactly the draws in a box of rational intervals; the probability is its volume. Error bounds of sums, products and inverses
of doubles are proved from the definition of rounding (`Lemmas/Near`). Trusted: draws of the generator are independent and uniform.

**Messages cut short** (`Lemmas/Grow`, `Lemmas/Depth`, `Props/Cut`; C08, C09). `Grows` relates a reader on some bytes and on more of them;
it goes through every combinator, hence through the readers of all 19 kinds. `Alike` shows that the depth at which the model stops the
readers of nested objects, the number of bytes plus one, is never reached.

**Fairness** (`Props/Fair`, `Props/Distribution`; C142, C75). No new model: counting the draws that lead to each suggestion, and the one to one
correspondence between draws and values of a uniform integer distribution (`C75_fair`).

**Values used from Python and Ruby** (`BoundValues`; C143). The methods of `Binding` and `Context` of both bindings: which function of the
library they call with which arguments, on top of `Binding`, `PyDatum` and `RbDatum`. Names that do not exist and types that are wrong are
exceptions (`.err .external`); a `byref` where `ctypes` expects a structure is `.ub` (observed with CPython 3.11 on a structure of our own,
not on the library).

**Distributions used from Python and Ruby** (`BoundDraws`; C144). The methods of `Distribution` of both bindings on top of the model of
sampling (`Distribution`): the array given to the library, the call, and the numbers read from the array by data type. An array is given
no room beyond its length: `bounds` stores one interval for each dimension in an array of one. The theorems compare with the rows that
`Layouts` (C77) says the library makes, for every distribution that can be created.

**Expressions used from Python and Ruby** (`BoundExpr`; C145). The constructors and `eval` of the classes of expressions of both bindings
on top of the model of expressions, with `ccs_create_binary_expression`, `ccs_create_unary_expression` and
`ccs_expression_list_eval_node`. `Denotes` says when a value of a language and a value of the library are the same, `Stands` what an
operand was built from, `Gets` that a program gets what the library gives. The type numbers are positions in the enumerations of the
bindings, compared to those of the library through the operators they give.

**Operands of expressions** (`Props/ExprDefined`; C146). No new model: `createExpression` and `eval` of `Model/Expr`. The number of operands of each operator is restated in the specification from the numbers of `ccs_expression_type_t`, the model has the table `ccs_expression_arity`; an evaluation that finds fewer operands than it reads, or a value array shorter than the context, is undefined in the model. The theorem says that for an expression built through the API the only undefined outcome left is an integer operator whose exact result does not fit, and names the part of the expression where that happens.

**Configuration spaces from Python and Ruby** (`Model/BoundSpace`; C147). The methods of `ConfigurationSpace` of both bindings that take
parameters as objects, names or positions, or give lists, are written on top of the model of the library (`Model/Space`, `Model/Getters`),
with `ccs_configuration_space_add_parameters`. Proved: on reachable spaces, a condition or a distribution goes to the parameters the keys
stand for and is read back by any key (through C48 and C54), the lists are those of the space, and adding several parameters is adding them
one by one. Not so, and proved not so: in Ruby `set_distribution` uses an undefined variable for names, so that it always fails on them, and
`add_parameters` fails on `nil`; in Python an empty list of distributions is the same as none. Expressions given as texts are not covered
here (C126), nor the user data and serialization of the spaces (C91, C128).

**Bindings of any kind** (`Kinds`; C148). `ccs_binding_cmp` and `ccs_binding_hash` on a heap of configurations, features, evaluations of the
three kinds, tree configurations and other objects. The functions of the kinds read the second object as one of their own kind; where the
field read is not at the same place in the other structure the outcome is undefined behaviour. `Typed` (a space is of one kind, evaluations
refer to objects of the right kinds) is what the creation functions check. Not so, and proved not so: evaluations of different kinds with the
same space and values are confused or refused.

**Comparing and hashing from Python and Ruby** (`BoundOrder`; C149). The operators of both languages on top of `Kinds` and of the comparison of
objective values (C60); Ruby's `Comparable`, `eql?` and keys of a `Hash` are modelled after the documentation of the language. Exceptions that
do not come from the library are the code EXTERNAL. Not so, and proved not so: see the manifest.

**Intervals from Python and Ruby** (`BoundInterval`; C150). Both classes on top of `Interval` (C27, C28, C30). What a language makes of an integer
given where a float is expected is a parameter; types other than the two valid ones are not modelled. Not so, and proved not so: see the manifest.

**Serialization from Python and Ruby** (`BoundSerial`; C151). `serialize` and `deserialize` of both languages on top of the entry points of
`Channel` (C107, C110, C111). The texts of `json` and `YAML`, the file a path names and the truth value of Python objects are parameters; the
conversion of a Python integer in a call with a variable number of arguments is modelled after `ctypes` and the x86-64 calling convention. Not so,
and proved not so: see the manifest.

**Trees from Python and Ruby** (`BoundTree`; C152). The class `Tree` of both languages on top of `Tree` (C68 to C71) and of the values of C132 and
C137. A language is what it gives and takes as values and how it passes integers; an object of the class is the handle it holds. That arities are
below 2^63 and that nodes hold only plain values is an invariant proved by induction over the calls (`narrow_grown`).

**Objective spaces and evaluations from Python and Ruby** (`BoundEval`; C153). The classes `ObjectiveSpace` and `Evaluation` of both languages, and
those for features and trees where they differ, on top of `Evaluation` (C61 to C65, C80, C81) and of the values of C132 and C137. The state of an
object `Evaluation` is the number of objective values it keeps once asked; programs add parameters and objectives between questions. Expressions
given as texts are parsed before (C126) and not modelled here.

**Tuners from Python and Ruby** (`BoundTuner`; C154). The questions of the classes `Tuner`, `FeaturesTuner` and `TreeTuner`, on top of `Tuner` (C63 to
C66) and of sampling (C50, C56). The callbacks of user defined tuners are C129, C133 and C134. `ask` is modelled for random tuners of configurations; its answer comes with the
configurations that no object holds.

**Parameters from Python and Ruby** (`BoundParam`; C155). The constructors and methods of the parameter classes, on top of `Param` (C32 to C36). A name
is a string or a symbol with its encoding; how Ruby writes a symbol that needs quotes is a parameter of the model, and the theorem about those symbols
holds for every way that does not shorten the text. `Understood` says what a language must offer (values read back, told apart as the program does),
is proved once for each language (C155_understood), and the theorems about lists, checks, comparisons and samples then hold for both at once. The
counter of default names is followed through any number of creations (C155_default_names_differ).

**Distributions from Python and Ruby** (`BoundDist`; C156). The constructors and properties of the distribution classes, on top of `DistWire` and
`Getters`. Numbers are passed as for intervals (C150). "The same distribution" is stated with a program, `copy` in `Spec/BoundDist`, that looks at the class
of an object, asks for the properties of that class, copies the components it is given back, and calls the constructor; it goes down to a depth, and the
theorem says that from some depth on it gives back the distribution itself.

**Seeded generators** (`Seeded`; C157). The drawing functions of `Param`, `Joint` and `Space` again, with the generator passed from one draw to the next in
place of a stream, and programs that make, seed, share and use several generators and spaces. The GSL is a parameter of the model (`Gsl`), with the state of a
generator that was never seeded as a separate field, so that two runs can differ in it; what drawing from a distribution does is another (`Source`).
`Spec/Seeded` follows a program from its calls alone: which generator each space uses and which were seeded. C157_streams is a refinement: the order of
the draws of a sampling call can be told beforehand (requests in turn, each asking for 1, 2, 4, ... rows), so its answers are those of the model with streams.

**Configurations and features from Python and Ruby** (`BoundConfig`; C158). The constructors of `Configuration` and `Features`, the checks and samples of the
spaces, and the seeds of `Rng`, on top of `Binding` (C58), `Space` (C50, C51, C56) and the values of C132 and C137. Lists of values are sent as those of
evaluations are (C153). Copies are proved once for every language that gives back what it took (`Returns`), which is proved for both (C158_returns).

**Tree spaces and tree configurations from Python and Ruby** (`BoundTreeSpace`; C159). The classes `StaticTreeSpace` and `TreeConfiguration`, on top of
`TreeSpace` (C72, C82) and `BoundTree` (C152), with the values and the node that an object keeps after the first question. `Spec/BoundTreeSpace` says what the life of an object
is: any calls that change trees, any questions in between. That nothing kept goes out of date is an induction over lives; its step (`Lemmas/TreeGrowth`)
is that a call that succeeds leaves every node it does not destroy its places, its value and its children. For dynamic spaces (`dynValues`, `dynNode`) a life also has questions that
make the space grow, with any callback; it rests on the same growth as C73.

**Equality and keys in Python and Ruby** (`BoundIdentity`; C160). What `==`, membership of a list and dictionaries do with objects of the bindings: each call
that returns an object makes a new one in the language, with its own identity; classes of parameters define `==`, the others here do not, and none
defines a hash (Python then forbids hashing parameters). The rules of the two languages are those of their manuals, not of code in /repo.

**Exceptions in Ruby callbacks** (`RbErrors`; C161). The programs of C138 again, with the `rescue` clauses and `set_error` of Ruby, and with what the library is
told of each callback. The proof is a refinement: on programs whose exceptions can be told, Ruby does exactly what Python does.

## Searches taken up again

C162 joins C87 (spaces read back) and C157 (generators passed from draw to draw).  `Spec/Resumed` defines `askAgain`, a space asked for one
configuration after the other with a generator passed along, and `DrawsBy`, which says that what drawing from a distribution does depends on its
contents only.  The space read back computes its evaluation order anew and may therefore find another error first; so the proof (`Alike`, `Agree` in
`Props/Resumed`) compares the states of the generator after every attempt and the configurations found, not the codes of errors.  For tuners (C92)
`Model/ResumedTuner` puts `_ccs_tuner_random_ask` and `_ccs_tuner_random_suggest` on the generator of the space (`search`, any list of asks, suggestions and tells),
also for features tuners, where `same` stands for the comparison of features (C90).

## 5. Properties

Status, files of `Props/` and what is proved, missing or violated.

* **C01 Unsigned integers survive the wire** (proved; Wire.lean). All 32/64-bit unsigned values and sizes, with exact announced size and refused truncation.
* **C02 Signed integers survive the wire** (proved; Wire.lean). All 32/64-bit signed values; small magnitudes take few bytes.
* **C03 Floats and fixed-width fields survive the wire on any host byte order** (proved; Wire.lean). Fixed-width 32/64-bit values; written bytes do not depend on the host byte order.
* **C04 Announced size is exact** (proved; Wire.lean). Every primitive, string, blob, datum, interval, header and object prefix announces exactly what it writes, and a writer given fewer bytes refuses.
* **C05 Strings and blobs survive the wire** (proved; Wire.lean). Strings without NUL, blobs and user data of any length below 2^64.
* **C06 Datums survive the wire** (proved; Wire.lean). Every writable datum reads back the same; a boolean stored with bits above 32 is truncated (stated).
* **C07 Intervals survive the wire** (proved; Wire.lean). Every interval with any flags.
* **C08 Truncated input is refused** (partial; Cut.lean, Wire.lean). Proved for every modelled primitive and composite, and for objects of all 19 kinds and any bytes accepted: no part of what was read is accepted, the answer being NOT_ENOUGH_DATA where it is defined (C08_no_part_is_accepted, C08_cut_messages), and what follows an object is not looked at (C08_what_follows_is_not_read). It fails for the user-data block, whose truncation is undefined behaviour (C08_userData_truncation_undefined).
* **C09 Arbitrary input bytes cannot cause undefined behaviour in the readers** (partial; Cut.lean, DistWire.lean, Map.lean, Param.lean, Wire.lean). Violated: the variable-length integer reader and the user-data reader have undefined behaviour on crafted bytes (C09_arbitrary_bytes_undefined, exact condition in C09_leb_undefined_iff). Fixed-width readers are proved defined. Also, proved: a crafted number of values (2^60 or more) or of map entries (2^59 or more) makes the size of the array wrap around, and the reader writes outside of it (C09_parameter_overflow, C09_map_overflow).
* **C10 Container header is self-consistent** (proved; Wire.lean). Header round trip, exact decision, and no object created from a refused header.
* **C11 Expressions survive serialization** (partial; ExprWire.lean). Round trip, exact size and identical evaluation for every built expression, any depth, any byte order, given a handle map. Excluded literals shown to fail: NULL strings (undefined behaviour) and booleans wider than 32 bits (read back as another boolean).
* **C12 Trees survive serialization** (partial; TreeWire.lean). Proved for every forest reachable by the library calls, every byte order on either side and every receiving process: writing uses exactly the reported size, reading gives a valid tree with the same positions and bit-identical node contents (C12_round_trip_partial); with IEEE arithmetic totals are bit-identical and areas equal wherever the total is positive (C12_areas_partial), and sampling with the same draws is identical unless a total is NaN (C12_samples_partial). The full claim is false: C12_nan_total (stale areas when the total is NaN) and C12_wide_boolean (boolean values wider than 32 bits).
* **C13 Parameters survive serialization** (partial; Param.lean). Round trip of every creatable parameter (any byte order on either side, fewer than 2^60 values) proved when no other listed value is numerically indistinguishable from a float default; C13_default_changes proves the full claim false (values 0.0 and -0.0).
* **C14 Maps survive serialization** (proved; Map.lean). Any entries (fewer than 2^59, what the address space can hold) with distinct keys and writable data; a NULL string value is undefined behaviour when written (stated).
* **C15 Descriptor writes deliver the exact byte stream** (proved; Fd.lean). Every schedule of write results; never-returning calls are covered by the prefix statement.
* **C16 Resumed non-blocking writes continue where they stopped** (partial; Fd.lean). Violated: a resumed write never delivers the right stream (C16_resumed_write_never_right, for every encoding and schedule), and may free an uninitialised pointer. Proved for a call that is never told to try again.
* **C17 Descriptor reads assemble the exact message and terminate** (partial; Fd.lean). Exact assembly proved for every schedule, blocking and (when realloc does not move) non-blocking. Violated at end of file (never returns), for announced sizes smaller than the header and for moved buffers (undefined).
* **C18 Reference counting destroys exactly once** (proved; Object.lean). All histories of retain, release and callback attachment on one object, callbacks not re-entering the object; also states what happens when the destructor fails.
* **C19 Destruction callbacks run in reverse order of attachment, once** (proved; Object.lean). Exact destruction trace.
* **C20 Thread error stack reports the latest failure with its full call path** (partial; Object.lean). Proved for every nesting of the error macros; violated when a cleanup fails or a user callback returns an unrecorded error (witnesses).
* **C21 Datum identity used by maps and bindings is an equivalence and a total order** (proved; Datum.lean). For both byte orders.
* **C22 Equal datums hash equally** (proved; Datum.lean). For every byte hash function.
* **C23 Public datum comparison is a total order** (partial; Datum.lean). Violated for NaN (C23_nan_breaks_order); total order proved on every other datum.
* **C24 A map is a finite map** (proved; Map.lean). All histories of set/delete/clear refine a finite function.
* **C25 Map enumeration is complete, duplicate-free and consistent** (partial; Map.lean). Violated: ccs_map_get_keys returns the values (C25_get_keys_returns_values). Values and pairs enumeration, counts and padding proved.
* **C26 Map holds exactly one reference per stored object occurrence** (proved; Map.lean). Reference balance over all histories and destruction.
* **C27 Interval membership and emptiness mean what they say** (proved; Interval.lean). Bit-exact floats and 64-bit integers.
* **C28 Interval intersection is set intersection** (proved; Interval.lean). For number bounds; the NaN-bound counterexample is stated.
* **C29 Interval union contains both operands** (partial; Interval.lean). Violated when tied bounds have different inclusions (C29_union_loses_tied_bound); convex hull proved otherwise, and only tied bounds can be missing.
* **C30 Interval equality is set equality** (partial; Interval.lean). Equal implies same values for all intervals; exact for integer intervals with a member and no extreme open bound; violated otherwise (C30_equality_not_set_equality).
* **C31 No oversampling flag means bounds are contained** (proved; Interval.lean). For domains with number bounds; the NaN-domain counterexample is stated.
* **C32 A created numerical parameter's default is a legal value** (partial; Param.lean). Proved for integers (with exact creation condition) and for doubles that are numbers. NaN defaults and NaN bounds are accepted (proved), and a too wide integer domain makes the creation test overflow (proved undefined).
* **C33 Categorical, ordinal and discrete parameters are sets of distinct values** (proved; Param.lean). Creation succeeds iff non-empty, listable, pairwise different values and index in range; check/validate exact.
* **C34 Ordinal comparison is the declaration order** (proved; Param.lean). Order of declaration, strict total order, unlisted values refused.
* **C35 Validation and checking agree** (proved; Param.lean). Check exact w.r.t. Legal; validation agrees; lists agree element-wise.
* **C36 Sampled parameter values are always legal** (proved; Param.lean). Any distribution given as an oracle of batches respecting its declared bounds; domain bounds must be numbers (Proper); failures enumerated; draws bounded extensionally (at most six requests of at most 32n numbers).
* **C37 In-place sampling buffers do not corrupt results** (proved; Param.lean). Word-level model of the array of datums, both expansion loops.
* **C38 Enumerating a categorical parameter's values fills the caller's array** (partial; Param.lean). Values in order and refusal of small arrays proved; C38_remaining_entries_not_set proves that remaining entries keep their previous contents.
* **C39 Evaluation depends only on the expression's own variables** (proved; Expr.lean). Same context, different contexts, and closed expressions in any environment.
* **C40 Reported parameters are exactly the variables, once each** (proved; Expr.lean). Sorted, duplicate free, exact membership, NULL padding, count, canonical; context check exact.
* **C41 Logical connectives implement the documented three-valued logic** (partial; Expr.lean). OR and NOT exact; AND exact except that an inactive operand hides a non boolean one (C41_and_hides_bad_operand).
* **C42 Not-equal is the negation of equal** (proved; Expr.lean). Full outcome equality.
* **C43 Orderings are mutually consistent** (partial; Expr.lean). Negation laws proved for all outcomes; exchange proved except for two different ordinal parameters, where C43_two_ordinals is a counterexample; meaning on numbers and ordinals.
* **C44 Equality between values is an equivalence** (partial; Expr.lean). Reflexive and symmetric; transitive on plain values; C44_not_transitive gives counterexamples (large integers, signed zeros).
* **C45 IN is membership** (partial; Expr.lean). Membership proved when the items are acceptable operands; C45_variable_inactive_item shows that an inactive item is refused for variables on numerical or discrete parameters.
* **C46 Integer arithmetic is exact or refused** (partial; Expr.lean). Exact when the result fits, zero divisor refused; every overflow, INT64_MIN % -1 and -INT64_MIN proved undefined (C46_overflow).
* **C47 Inactive operands make every strict operator inactive** (partial; Expr.lean). All strict operators; orderings refuse inactive variables on categorical parameters (C47_categorical_refused).
* **C48 Condition graph ordering is sound and complete** (proved; Space.lean). Every reachable space, every built expression: accepted exactly when known and acyclic, reasons of refusals, order complete and right after acceptance and in every settled space (no refused condition since the last check, sample or accepted condition).
* **C49 Activity is the least fixed point of the conditions** (partial; SpaceConfig.lean). Proved for sampled configurations of every reachable space, and for the default configuration of every settled space (with uniqueness and existence). Violated for the default configuration after a refused cyclic condition (C49_wrong_after_refusal).
* **C50 Sampled configurations are valid** (partial; SpaceConfig.lean). Proved for every reachable space, random stream and well-behaved distributions, when parameters have bounds that are numbers. Violated with a NaN bound, which the API accepts (C50_nan_bound).
* **C51 Configuration check is exactly the definition of validity** (proved; SpaceConfig.lean). Exact characterisation of the answers true and false and of the errors, on every reachable space.
* **C52 The default configuration is never forbidden** (partial; SpaceConfig.lean). Proved for every settled space, whatever the order of additions (by monotonicity of evaluation under deactivation). Violated after a refused cyclic condition (C52_forbidden_after_refusal).
* **C53 A refused condition leaves the space unchanged** (partial; SpaceConfig.lean). The definition, the lookups, checks and sampling are proved kept by every refusal; the default configuration by every refusal but those for a cycle, which change it until the next check (C53_default_changes, C53_default_after_check).
* **C54 Distributions partition the parameters** (proved; Space.lean). Every list of calls; callers give at least dim positions and dim > 0; spaces below 2^32 parameters. Never undefined when default distributions are defined.
* **C55 Parameter lookup by name, handle and index agree** (partial; Space.lean). Agreement, uniqueness, density and stability for positions below 2^32; C55_index_wraps proves that larger positions are reduced modulo 2^32 instead of refused.
* **C56 Sampling is bounded and reports failure** (proved; SpaceConfig.lean). Exact number of attempts and outcome for one and for several configurations; 100*n must fit in a size_t.
* **C57 Configuration comparison is a total order and agrees with hashing** (proved; Binding.lean). Configurations, features, evaluations and features evaluations, any heap, any byte hash function, both endiannesses.
* **C58 Reading and writing values by index, name and bulk agree** (proved; Binding.lean). Any sequence of writes by index, name, parameter or in bulk, on any space built by the API (below 2^32 parameters) possibly growing in between; values compared without flags.
* **C59 A refused bulk write leaves values unchanged** (partial; Binding.lean). Violated: values before the first refused one are stored (C59_changes, C59_witness). Proved for wrong lengths and from the refused position on.
* **C60 Evaluation comparison is Pareto dominance** (partial; Evaluation.lean). Proved for all evaluations with objective values that are numbers (exact characterisation of the four answers), for other values and for the refusals, with and without features. Violated for NaN, EQUIVALENT to every double (C60_nan).
* **C61 Better-than is a strict partial order** (partial; Evaluation.lean). Swap, asymmetry, reflexivity and symmetry hold for all evaluations; transitivity of BETTER and EQUIVALENT and of their mixes without NaN. Violated with NaN (C61_nan_better, C61_nan_equivalent).
* **C62 Objective values can be read into any large enough array** (partial; Evaluation.lean). Violated: the test of the size is reversed; every larger array is refused (C62_larger_refused) and every smaller one overflows (C62_smaller_overflows). Proved for the exact size.
* **C63 Optima are the Pareto front of the history** (partial; Tuner.lean). Proved for every sequence of batches of evaluations of one objective space with numeric objective values, as the exact list of history positions kept (C63_pareto_front_partial). Violated with NaN (C63_nan_front, C63_nan_blocks).
* **C64 Told evaluations are never lost** (partial; Tuner.lean). The history is complete whatever happens. Optima are kept when no comparison fails; violated when one does: the optimum compared is dropped and the new evaluation is not added (C64_failure_removes, C64_witness).
* **C65 Suggestions come from the optima** (proved; Tuner.lean). Tuner and features tuner: every draw gives an optimum, every optimum is reachable by a draw, otherwise exactly one fresh sample.
* **C66 Features tuner keeps one front per features vector** (partial; Tuner.lean). Independence of other features holds whatever the values (C66_independent); the front per features value for numeric objective values (C66_front_partial). Violated with NaN like C63.
* **C67 Checking features values works on features spaces** (partial; Binding.lean). Violated: the check of plain vectors tests for the type of configuration spaces and always answers INVALID_OBJECT on a features space (C67_always_refused). Proved for features objects.
* **C68 Subtree weights are always consistent** (proved; Tree.lean). Every sequence of successful calls that attaches no node below itself, any floating point addition and multiplication. The weight recorded for a slot is the biased total up to the sign of a zero (the code skips equal updates).
* **C69 Position of a node leads back to it** (proved; Tree.lean). Every forest so obtained: one root, one position per node, exactly reported, leading back, with the values along it.
* **C70 A valid position designates a node** (partial; Tree.lean). Violated when the last child of the position is missing: reported valid, yet refused (C70_missing_child, for every such position). Proved for all other positions.
* **C71 Attaching a child keeps the structure a forest** (partial; Tree.lean). Violated: attaching a root below itself succeeds when its biased total is 1.0 and makes a cycle (C71_cycle); otherwise the call never returns (C71_endless). Proved for histories without such attachments.
* **C72 Tree samples are valid positions reached with positive weight** (partial; TreeSpace.lean). C72_valid: for any arithmetic and any weights sampling ends and every sampled position is valid (or INVALID_DISTRIBUTION when a total is zero). C72_positive_partial: with IEEE arithmetic and totals whose inverse is finite each step has an area holding the draw and a non-zero weight. The full claim is false in the code: C72_tiny_total (subnormal total, infinite inverse) and C72_nan_weight (NaN weight accepted, stale areas) sample children of weight zero.
* **C73 Lazily built trees are indistinguishable from static ones** (partial; TreeSpace.lean). C73_same_answers: for any sequence of node, values and validity queries a dynamic space answers as the static space over the complete tree (value, arity, weight and bias of the nodes; values; validity), and no position is passed to the callback twice. C73_callback_once_partial: for any callback, a position on which it succeeds is passed at most once. C73_node_stays, C73_values_stay, C73_valid_stays: once the space has answered for a position, that answer stays, with no callback call, whatever is asked in between and even if the callback then behaves otherwise. Missing: positions on which the callback fails are passed again by each query (C73_failed_retried). The callback is a function of the position, as the property requires for a complete tree to exist.
* **C74 Roulette selection returns the area containing the draw** (partial; DistWire.lean, Roulette.lean). Proved for all bounds that are numbers, sorted or not, and for roulette distributions with a finite total under IEEE-754 arithmetic (including the initial guess, up to 2^53 areas). Violated with an infinite area, which creation accepts: bounds are NaN and a zero area is selected (C74_nan_area); a zero area given last can be selected by the largest draw (C74_last_zero_selected). With a total of at most 2^1022 the bounds are sorted from 0 to 1 (C74_sorted_partial), so the returned area is the only one that holds the draw (C74_unique_partial).
* **C75 Uniform integer samples are in range and on the quantization grid** (partial; Distribution.lean). C75_uniform_int_partial: under the contract of gsl_rng_uniform_int, every sample of an accepted linear integer distribution is in [lower, upper), at least a step below upper, on the grid, in every layout, without overflow; C75_every_value_partial: each such value is drawn for one answer of the generator. Fails for bounds at least 2^63 apart (signed overflow at creation, C75_wide_bounds) and when there are more values than the generator can choose from (accepted, then the GSL error handler ends the program, C75_wide_aborts; 2^32-1 for the default generator).
* **C76 Mixture bounds cover every component** (partial; Distribution.lean). C76_bounds_partial: for any nesting, column by column, every value within the bounds of a component is within those of the mixture, except a bound included by one component and excluded by another (C76_loses_largest). C76_memory_partial: no write outside memory when 7*dimension <= 8*components or with one component. Otherwise the temporary block, sized by the number of components instead of the dimension, overflows: C76_heap_overflow, C76_heap_overflow_witness.
* **C77 Multivariate samples are laid out component by component** (partial; Distribution.lean). C77_layouts_partial: every distribution, however nested, gives the same samples in the three layouts, writes all the cells asked and nothing else. C77_multivariate_partial, C77_mixture_partial: the samples are those of the components, each in its columns. C77_outcome_unique: the specification determines the result. Fails when a mixture is asked for some columns only: C77_unset_pointers, C77_null_column.
* **C78 Joint sampling never returns rejected rows** (proved; Joint.lean). Any distribution given as an oracle of rows within its declared bounds, any parameters created by the API whose domain bounds are numbers; rows intact and in draw order, every cell legal, failures classified, at most six draws of at most 32n rows.
* **C79 Emptiness report is exact** (partial; Interval.lean). Violated (C79_nonempty_without_member); the failing cases are characterised exactly.
* **C80 Checking evaluation values is exact** (proved; Binding.lean). Every objective space and vector.
* **C81 Objective spaces only hold objectives on their own parameters** (partial; Evaluation.lean). Acceptance and order proved; no out of bounds read for evaluations with one value per parameter. Violated for evaluations created before a parameter was added (C81_reads_past).
* **C82 Tree configurations compare, hash and report their position consistently** (partial; TreeSpace.lean). C82_cmp, C82_order, C82_hash: equality, total order and hash. C82_position_partial: reported position. The documented padding of extra room with 0 is not done by the code: C82_not_padded.
* **C83 Samples lie within the bounds a distribution reports** (partial; Distribution.lean, FloatUniform.lean, LogUniform.lean, Normal.lean). Linear uniform integers, roulettes, multivariate distributions of those, and mixtures without disputed bounds: C83_uniform_int_partial, C83_roulette_partial, C83_multivariate, C83_mixture_partial. Fails for uniform doubles, which can give the excluded upper bound (C83_float_upper) but nothing else outside when the width and the number of steps are finite (C83_float_closed_partial, quantized or not; IEEE arithmetic, gsl_ran_flat from one draw); with an infinite width no sample is finite (C83_float_wide). Logarithmic uniform distributions go below the lower bound even with correctly rounded log and exp: from 16, a draw of 0 gives 15 (C83_log_int_lower, C83_log_float_lower). A normal integer distribution can convert 2^63 (C83_normal_int_overflow), and without quantization this and NaN are the only draws for which sampling is undefined: all others beyond the integers are drawn again (C83_normal_int_defined_partial). Linear normal integer distributions keep their bounds and their quantization whatever the draws (C83_normal_int_partial), and the bounds they report are the last multiples of the quantization among the integers (C83_normal_int_bounds); logarithmic ones go below the lower bound: with quantization 32 and mean log 16 a deviation of 0 gives 0 (C83_lognormal_int_lower). Not covered: how far logarithmic samples can be out; normal doubles are not bounded.
* **C84 Distributions survive serialization** (partial; DistWire.lean). Reading has exactly the outcome of creating the distribution again from what it reports, for any arithmetic; with IEEE arithmetic the result is identical for uniform, normal, multivariate, every mixture without NaN bound, and roulettes whose bounds are multiples of 2^-52. False in general: areas 1,5,1 come back with other bounds, roulettes and mixtures with a NaN bound and roulettes with a bound above 1 are refused; all proved. Roulettes with a total of at most 2^1022 are never refused and keep their number of areas (C84_roulette_accepted_partial).
* **C85 Mixtures accept every weighting** (partial; DistWire.lean). False: weights 19, 11, 7, 0 are refused (proved). True for two components with a total between 2^-1022 and 2^1022.
* **C86 What is read could have been created** (partial; DistWire.lean, Readable.lean). Proved for parameters, expressions, trees, maps, distributions, configuration, features and objective spaces, tree spaces, configurations, features and evaluations: whatever the bytes, what is read is what creation functions and accepted calls make (spaces: the reading process gives different addresses to the parameters it creates). Violated for tuners (C86_tuner_not_created, see C102): bytes are accepted that give a tuner that no results lead to.
* **C87 Configuration spaces survive serialization** (partial; SpaceWire.lean). Outcome of reading proved for every reachable space with distinct addresses: what making the same calls again gives; this succeeds exactly when the generator type is known, the distributions can be created again and the clauses have a value on the default configuration, and gives the same space up to addresses, with the same default, check and samples. False in general, proved: an expression used twice makes reading undefined (double release), a clause without a value on the default makes it refused. Checking and sampling compared for processes of the same byte order.
* **C88 Random generators survive serialization** (proved; SpaceWire.lean). Both byte orders, all states; the loss of the state without error is part of the statement.
* **C89 Configurations and features survive serialization** (partial; RunWire.lean). Exact outcome for every storable object, every map and both byte orders, and round trip when the values fit the space found. False in general, proved with objects made by the calls: an object whose space got parameters since is refused, one made for an empty space comes back with blank values, one with a string that is not legal (accepted when not transient) is refused.
* **C90 Objective spaces and features spaces survive serialization** (partial; RunWire.lean). Features spaces: full. Objective spaces: full when no object serves twice; false otherwise, proved: one expression used for two objectives makes reading undefined (double release). Same objective values and comparisons proved for the spaces read back.
* **C91 Evaluations survive serialization** (partial; RunWire.lean). Exact outcome for every storable evaluation and map, and round trip when the values fit the spaces found; false in general as for C89, proved.
* **C92 Tuners survive serialization** (partial; RunWire.lean). Round trip for tuners whose evaluations belong to their spaces and were told once; later tell calls give the same answers and optima, and suggestions drawn from the optima are the same. False in general, proved: an evaluation told twice, one of another space, or one made before its space grew, makes the tuner unreadable. Suggestions of a tuner without optima are those of the configuration space (C87). User defined tuners: C99-C101.
* **C93 Tree spaces survive serialization** (partial; TreeRunWire.lean). Static spaces: announced size, name, user data and tree (same answers to every query, same samples on the same draws when no total is NaN) for every tree made by calls; refused on a known handle. False, proved for all the inputs concerned: the generator of a static space is replaced by a new one of the default type; a dynamic space is read with its state as user data, its state callback is called with an empty state, and its user data stay unread.
* **C94 Tree configurations survive serialization** (partial; TreeRunWire.lean). Exact outcome and round trip for every configuration, map and following bytes. False, proved: a message that announces 2^61 indexes or more makes the library write outside of its array.
* **C95 Tree evaluations survive serialization** (partial; TreeRunWire.lean). Exact outcome for every storable tree evaluation and map, and round trip when the values fit the objective space found; false in general as for C91, proved.
* **C96 Tree tuners survive serialization** (partial; TreeRunWire.lean). Round trip for tuners over static spaces whose evaluations belong to their spaces and were told once; later tell calls, optima and suggestions the same. False in general, proved: an evaluation told twice or of another tree space makes the tuner unreadable, and a tuner over a dynamic tree space never comes back, unless the user data of its space has 6 bytes. User defined tree tuners: C99 on.
* **C97 Tree evaluations have a total order and a hash that agrees with it** (proved; TreeRun.lean). All tree evaluations.
* **C98 What tree tuners ask and suggest** (partial; TreeRun.lean). Number, space, check and termination proved for every tree with arities below 2^53 and every draws; values can be fetched unless the last step goes to a missing child, hence always on complete trees. False in general, proved: the free slot of a node is sampled, accepted, and has no values.
* **C99 User defined tuners hand every valid call to the user** (proved; UserTuner.lean). Any callbacks on any type of state, any list of calls. The checks on features are an arbitrary function of the handle.
* **C100 User defined tuners survive serialization** (partial; UserTuner.lean). Announced size, state of the user unchanged, and round trip for callbacks that show a history without repetition whose evaluations belong to the spaces, and optima in it; callback errors and missing callbacks. False in general, proved: repeated evaluations or optima outside of the history make the message unreadable; without deserialize_state the optima and the state are lost.
* **C101 User defined tree tuners survive serialization** (partial; UserTuner.lean). As C100 over static tree spaces. False, proved: over a dynamic tree space reading is undefined with any complete callbacks, since the callbacks of the tuner are called as those of the space.
* **C102 The optima of a tuner that was read are optima of its history** (partial; UserTuner.lean). Proved for all bytes: optima are evaluations of the history or spaces of the tuner. False, proved: the configuration space is accepted as an optimum, and so is any list of evaluations of the history.
* **C103 Reference counts are right in every program** (proved; Own.lean). All programs of fair calls (Spec/Own.lean) on every kind of object, any verdicts of the checks on values, counts below 2^31. NULL arguments, allocation failures, destruction callbacks and reuse of addresses are left out; deserialization is not among the calls.
* **C104 Objects are freed as soon as nobody can reach them** (partial; Own.lean). An object that exists can be reached from a reference of the client, from a reference lost by a failed call (at most one per call, of five kinds only), or from a map that contains itself; without these and without failing user destructors, memory is exactly what can be reached. False in general, proved: a map put into itself and a tuner whose user destructor fails are never freed.
* **C105 Refused calls leave all objects as they were** (partial; Own.lean, OwnGradual.lean). Proved for all calls except refused configurations, samples, ask, suggest and dynamic children (C105_refused_partial), and calls that handle several objects in turn or run a destructor of the user. False, proved: a refused configuration, unsuccessful samples and a refused dynamic child each lose one reference, never more than one (C105_at_most_one); add_objectives and tell keep what came before the object refused (C105_objectives_stay, C105_tell_stays), tree samples hand over what was drawn before the failure (C105_tree_samples_given). What these leave is exactly the state after the successful part of the call (C105_objectives_partial, C105_tell_partial, C105_tree_samples_partial), and a release that fails leaves the state of one that succeeds except for the object itself, which is neither freed nor usable (C105_release_partial).
* **C106 Calls modify only the objects they are about** (proved; Own.lean). All calls and states. A tree that loses its parent had a parent that was freed, or that the call is about.
* **C107 All channels carry the same message** (proved; Channel.lean). Options other than the non-blocking one; blocking descriptors (C15, C17). Files on a system that accepts all calls; C108 is about the others.
* **C108 Serializing to a file changes that file only, and only when it succeeds** (partial; Channel.lean). Other files are never touched; refused calls leave the file; success gives the announced size and the bytes of the memory operation. False, proved: once the file is opened its previous contents are lost whatever happens next, and a failing callback leaves an empty file, which cannot be read.
* **C109 Deserialization gives an object of the kind that was written** (proved; Channel.lean). All messages and the nineteen kinds, over the readers of the other modules.
* **C110 Serialization options are validated and the last one wins** (proved; Channel.lean). All lists of options for all operations.
* **C111 User data travels with objects through the callbacks** (partial; Channel.lean). Proved for data that is not empty. False, proved: data that serializes to nothing is not reported to the callback of the reader, like no data at all.
* **C112 A failed deserialization hands out no object** (partial; Channel.lean). Proved for errors while the object is read. False, proved: when the user data cannot be read or its callback fails, the error comes with a live object; when the handle is already in the map given, seven kinds leave a pointer to the freed object.
* **C113 The default distribution of a parameter covers exactly its domain** (partial; Default.lean, FloatDefault.lean). All parameters creation accepts: existence, dimension, bounds, no filtering; samples of integer and categorical parameters legal, every categorical value drawn (integers: C75). False, proved: the default distribution of a double parameter can round up to the excluded bound, and the sample is not filtered; it is the only illegal value it gives (C113_float_closed_partial, finite width and number of steps).
* **C114 A Kokkos variable is tuned over exactly the candidates it declares** (partial; Kokkos.lean). Sets: exact. Integer ranges with excluded upper bound or a step: the domain, candidates legal, drawn values are candidates, and which are drawn. False, proved: an included upper bound without step is never legal (integers up to 2^53, doubles from 2^-25), a one-value range ends the program, larger integer bounds are rounded, INT64_MAX and step overflow undefined, unbounded integers undefined, the last candidate before an excluded bound is never drawn when the step does not divide the length.
* **C115 Kernels are fenced exactly while a tuning context is being measured** (partial; KokkosRun.lean). Refinement to a ledger of open and measured contexts, for all callbacks that are properly nested (each context asks once and ends before those opened earlier). False otherwise, proved: before initialization the stack is empty (undefined); a context that asks twice leaves kernels fenced after its end; when contexts end in another order a measured context can be left without fences.
* **C116 Each measured Kokkos context reports one evaluation and regions stop at 500** (partial; KokkosRun.lean). For properly nested callbacks the size of the history of each region is the number of its measured contexts; at most 500 when no context contains one of its own region.
* **C117 Kokkos requests with the same variables share one tuner** (partial; KokkosRun.lean). For properly nested callbacks: same tuner iff same set of variables, whatever the order. Kept until finalization: for all callbacks.
* **C118 The Kokkos connector answers with candidates of the declared variables** (partial; KokkosTrial.lean). All callbacks of programs that declare their variables once before use, with the type they give in requests, on a host that does not put new objects where others are. Each value is a legal value of the parameter of the declaration (exact for sets). For ranges: within the range when the upper bound is excluded; with an included one up to one step more for integers, and nothing is said of included bounds of doubles (C114 shows these are not handled).
* **C119 The tuner of a Kokkos region knows exactly what was measured** (proved; KokkosTrial.lean). Same programs and hosts as C118; contexts may be nested in any way.
* **C120 A converged Kokkos region is answered with the fastest values known** (proved; KokkosTrial.lean). Same programs and hosts as C118. The example is a program of 500 contexts evaluated in the model by the kernel.
* **C121 Lists are read back whole** (partial; Getters.lean). Listing is proved whole for conditions, clauses, objectives, nodes and components, and equal to the calls by position for positions below 2^32.  Violated beyond: the position is reduced modulo 2^32 (src/configuration_space.c:1348,1451, src/objective_space.c:547), so that position 2^32 gives the first element (C121_position_wraps, C121_position_wraps_case).
* **C122 What is read back is what was put in** (proved; Getters.lean). Refinement: the content of a configuration space equals the record of the calls answered with success, by induction over histories (positions below 2^32, see C121).  Creation followed by reading back for expressions, distributions and numerical parameters.
* **C123 Error stacks have one owner per reference** (proved; Stacks.lean). Invariant over all schedules of the calls of any number of threads: the count of a stack is the number of references held by the program and by the threads, and it is in memory iff that number is not zero.  The ownership rule is the documented one; C123_given_away_twice shows that it is necessary.  Each call is one step (no data races inside a call), allocation succeeds.
* **C124 Threads do not see each other's errors** (proved; Stacks.lean). Refinement: for every schedule, what a thread sees is the one-thread model of C20 run on its own calls alone.  Hypothesis: no thread adds frames to a stack that is at that moment the error of another thread (a program can do this with a shared handle).
* **C125 Reporting an error terminates** (partial; Stacks.lean). Proved to end unless the replaced stack is destroyed and has a destruction callback that meets an error.  Violated in that case (C125_reporting_never_ends): the stack is released before the variable of the thread is reset (src/error_stack.c:27-29), so that the nested error releases the same stack, whose count is 0, which is an error, and so on: unbounded recursion.
* **C126 The text of an expression is read back with the same meaning** (partial; Text.lean). Proved for all expressions the grammar can express in which no right operand is made with an operator of the same precedence (C126_text_partial; the same expression when no negative number occurs outside of lists, C126_text_same_partial), and the exact grouping that is read in general (C126_text_grouped).  Violated otherwise: Expression.__str__ puts parentheses only around operands of strictly lower precedence, so 5 - (2 - 1) prints as 5 - 2 - 1; a negative literal on the left of # is read as the opposite of the test; lists with computed items, empty strings, infinities have no text in the grammar.  The Python parser is given no context, so it reads no text with a variable (C126_text_variables).  Terminals are taken as given (white space and the printing of numbers by the language are not modelled); the parser generator is modelled as a shift-reduce parser with the priorities and associativities of the grammar.
* **C127 Documented refusals of NULL pointers and invalid objects** (partial; Api.lean). Table of the argument checks of all 330 documented public functions against the table of the 734 refusals their documentation announces.  Proved for every function, every combination of arguments and every state: a documented condition that is met makes the call fail unless it is one of 35 listed gaps (C127_refused_partial), with the code of a condition that is met (C127_reason); complete for the functions without gaps (C127_complete).  Violated, each gap with arguments (C127_gaps): NULL results are written through by ccs_rng_get_type, ccs_get_result_name, ccs_create_error_stack, ccs_evaluation_hash, ccs_features_evaluation_hash, ccs_tree_evaluation_hash (and ccs_binding_hash of an evaluation), ccs_configuration_space_check_configuration (C127_null_written); NULL is accepted by ccs_object_set_serialize_callback, ccs_tree_configuration_get_values, ccs_map_get_pairs, ccs_distribution_soa_samples (count 0); the ccs_binding_* and ccs_context_* functions take an object of any kind; ccs_features_space_check_features_values wants a configuration space (C67).  What a call does after its checks is not part of this property.
* **C128 What a program attaches to an object from Python or Ruby lives as long as it is used** (partial; Registry.lean). Proved for every history of attachments on plain and user defined objects: data and serialization callbacks are used alive and are the last ones attached; on destruction each destroy callback is called once, last one first, alive, and the registry forgets the object, unless a destroy callback was the first thing attached.  Violated in that case, whatever else is done (C128_first_callback_freed): the cleanup of the registry is itself a destroy callback registered after it, destroy callbacks run in reverse order, so that the callback is freed before it is called.
* **C129 User defined objects read back through the bindings behave as created ones** (partial; Registry.lean). Proved for user defined objects without user data.  Violated with user data, whatever they are (C129_data_refused): restoring the data registers the new object, and _register_vector then refuses an object that is already registered.
* **C130 Objects of the bindings hold exactly one reference** (partial; Wrappers.lean). Tables of the 113 functions of the library that return handles (reference given or lent), and of the 100 Python and 96 Ruby wrappers made of them.  Proved for all sequences of calls and collections: no freed object is touched, needed objects are in memory, and objects nobody needs are freed.  Violated by Parameter.default_distribution in both bindings: the new reference of ccs_parameter_get_default_distribution is retained once more by the wrapper and never freed (C130_default_distribution_leaks).
* **C131 Objects of the bindings have the class of what they stand for** (partial; Wrappers.lean). Proved for all wrappers but three.  Violated in Python: Features.features_space names a class that is not imported (NameError), and a features space read back or got as a context is a ConfigurationSpace, whose 18 own functions all refuse it (C131_features_space, with the checks of C127); in Ruby: Expression#parameters names a class that does not exist (C131_expression_parameters).
* **C132 Values and maps from Python** (partial; PyDatum.lean). Proved for all values the library can represent (64-bit integers, strings without NUL, floats, booleans, None, inactive) and all histories.  Violated: other integers are silently reduced modulo 2^64 (C132_int_wraps), strings are silently cut at a NUL (C132_string_cut), so that different keys of a map become one (C132_keys_collide); Map.has_key always raises, as it uses a name its module does not import (C132_has_key_fails).
* **C133 Arrays filled by callbacks written in Python or Ruby** (partial; Callbacks.lean). Proved at the level of bytes for every size of array and every list: Python ask, get_optima and get_history in both languages, Ruby ask when as many configurations are given as asked for.  Violated: a count within bounds with more configurations writes past the array in both languages (C133_written_outside); Ruby pads with NULL at offset 9*i instead of 8*i, past the end of every array of two or more places (C133_ruby_padding; trusts that FFI pointers given to callbacks have elements of one byte); an element that is not a configuration loses the references taken before it (C133_references_lost).
* **C134 State of tuners written in Python or Ruby** (partial; Callbacks.lean). Proved: the state given by Python is what is written.  Violated: no message is ever read with a callback for the state, in either language (C134_never_read: undefined names POINTER and c_byte, a c_void_p that is indexed, p_p_history, a method called instead of the callback), and a Ruby tuner with a callback for its state is never written (C134_ruby_never_written).
* **C135 Strings of a map stay readable** (partial; Strings.lean). Memory model of the strings of a map (blocks, pointers, buffers of the program).  Proved for all programs that pass strings as documented (transient, or in buffers left alone).  Violated for strings taken from the map: setting another value for a key that ccs_map_get_pairs returned reads the key after it was freed, in every such state (C135_own_key_is_freed: src/map.c:225-227 remove the old entry before HASH_ADD hashes the key that is stored in it); a value of the map stored under another key dangles when the first key is deleted (C135_own_value_is_freed).
* **C136 Strings accepted by a string parameter stay readable and are kept once** (proved; Strings.lean). Same memory model, one string parameter and any number of bindings.  The parameter outlives the bindings that use it (C103).  Strings taken from another parameter without the transient flag are not kept; the documentation asks that they stay allocated.
* **C137 Values and maps from Ruby** (partial; RbDatum.lean). Proved for all 64-bit integers (others are refused), ASCII strings without NUL, floats, booleans, nil, inactive and objects, and for all programs that use []=, [], include? and size.  Violated: strings that are not ASCII come back in the binary encoding and are not equal (C137_text_differs, trusts FFI's read_string); strings are cut at a NUL (C137_string_cut); the bitmask of the flags lacks CCS_DATUM_FLAG_ID, so identifiers are refused (C137_identifier_refused) and read as live objects, which is undefined for those of a map that was read back (C137_identifier_read, C137_map_read_back); keys, values, pairs and each call a method that does not exist (C137_no_enumeration).
* **C138 Exceptions raised in callbacks written in Python** (partial; PyErrors.lean). Proved for all programs whose exceptions have a text without NUL and derive from Exception, with callbacks nested to any depth, handled or not, and whatever ctypes leaves in the result of a callback that raises.  Violated for exceptions without a text (assert, raise ValueError()): ErrorStack passes the empty str to c_char_p, which raises in the handler, so the result of the callback is not written and if it reads as a success the call succeeds (C138_silent, C138_silent_success); the same for KeyboardInterrupt and SystemExit (C138_exit); a text is cut at a NUL (C138_text_cut).
* **C139 A roulette gives each area its share** (proved; Chance.lean). For every draw in [0, 1), with IEEE double arithmetic as the code computes it; the draws that select an area are exactly those of an interval, and its width is within (n+1)/2^49 of the share.  That draws are uniform is GSL's business.  Sums of weights that overflow are excluded by the statement (see C72).
* **C140 Sampling a tree gives each position its share** (proved; Chance.lean). For every forest built by calls (GrownForest), every node, and draws in [0, 1): the sequences of samples are exactly the draws in a product of boxes (C140_shares, which gives independence), the positions are exactly the valid ones (C140_positions), and with weights and biases of 1 the shares are equal (C140_uniform).  Tame says that totals are finite, zero or with a finite inverse, and that no product with a bias is subnormal; trees outside are the subject of C72 and C74.
* **C141 A mixture draws from each component with its share** (proved; Mix.lean). Any components, IEEE arithmetic; the intervals of the components follow each other from 0 to 1, a draw in the interval of a component gives a sample of that component with the rest of the generator, then the other samples.  Weights whose sum overflows are excluded by the statement; mixtures refused because of rounding are C85.
* **C142 Suggestions choose fairly among the optima** (proved; Fair.lean). The draws are counted (Nat.count over the range of the generator); the features tuner counts among the optima whose features are the same binding.  That the generator gives all numbers equally often is GSL's business.
* **C143 Values of configurations used from Python and Ruby** (partial; BoundValues.lean). Python: reading by all three ways, setting by parameter and position, in bulk, dictionary of a space that did not grow, validation by position. Ruby: setting by all ways, reading by name, symbol and position, dictionary, validation. Values that are objects of the library are left out. False, proved: setting by name from Python ends the program (a pointer is given to ctypes where a structure is expected; CPython 3.11), Python has no hash for configurations, validates by position only, has no dictionary once the space has grown, and takes positions modulo 2^64; Ruby cannot read by parameter.
* **C144 Distributions sampled from Python and Ruby** (partial; BoundDraws.lean). sample of both languages, samples of Ruby, and for distributions of one dimension samples of Python, bounds and is_oversampling. False, proved, for all distributions of several dimensions: samples of Python always raises an exception (ctypes refuses the array of arrays), bounds of both languages lets the library write past the end of one interval, is_oversampling reads past it.
* **C145 Expressions built and evaluated from Python and Ruby** (partial; BoundExpr.lean). Building, literals, evaluation and refused counts in both languages. False, proved: in Python nothing can be evaluated in a context without parameters (an empty list is false), and in neither language can the parameters of an expression that has some be asked for (an attribute and a class that do not exist). Values that are objects of the library are left out.
* **C146 An expression has the operands its operator takes, and only a signed overflow makes an evaluation undefined** (proved; ExprDefined.lean). Creation: `C146_created` (accepted exactly when the operator, the number and the kind of the operands are right; the operands are those given). Evaluation of any expression built through the API: `C146_undefined_only_by_overflow` and its corollary `C146_defined`. The caller owes a value for each parameter of the context. That an overflow is not refused is the violation recorded under C46.
* **C147 Configuration spaces described and questioned from Python and Ruby** (partial; BoundSpace.lean). Proved for conditions (both languages), lists and counts (both languages) and distributions from Python. Violated, and proved so: from Ruby a list of parameters in which one is named by its name always fails (undefined variable in the block, C147_ruby_distribution_by_name), a list of distributions with nil is refused (C147_ruby_default_distribution), and from Python an empty list of distributions is taken for none (C147_python_no_distributions).
* **C148 Bindings of any kinds can be compared and hashed** (partial; Kinds.lean). `C148_outcome` says, for any two bindings of a well-typed heap, exactly when comparing answers, when it is refused and when it is undefined; `C148_total_order_partial` and `C148_hash` are the order and the hash. Violated, and proved so: an evaluation and an evaluation with features of the same space and values are read as each other (C148_confused), an evaluation and a tree evaluation are refused (C148_refused), and any object is taken for a binding (C148_not_a_binding).
* **C149 Comparing, sorting and hashing configurations and evaluations from Python and Ruby** (partial; BoundOrder.lean). Proved: the order of bindings from Python (`C149_python_order_partial`, without clashes as for C148), of tree configurations from Python with their hash, of configurations and features from Ruby with their hash, and what the operators mean for evaluations in Ruby. Violated, and proved so: nothing but tree configurations can be hashed in Python (C149_python_hash), comparing with None or nil raises (C149_strangers), in Ruby evaluations of different configurations are equal with different hashes (C149_ruby_equal_evaluations), failed ones cannot be compared (C149_ruby_failed), equal configurations are never the same key (C149_ruby_keys), and the languages disagree on evaluations (C149_languages_differ).
* **C150 Intervals made and questioned from Python and Ruby** (partial; BoundInterval.lean). Proved in both languages for numbers of the type of the interval that 64 bits hold, and that Ruby refuses larger integers. Violated, and proved so: Python takes integers modulo 2^64, so 2^64 + 3 is inside from 0 to 10 (C150_python_wraps), and Ruby looks for the integer part of a float, so 10.5 is inside from 0 to 10 (C150_ruby_truncates).
* **C151 Objects serialized and read from Python and Ruby** (partial; BoundSerial.lean). Proved: one message in all channels and both languages (`C151_serialize_partial`), reading it back in either language (`C151_round_trip_partial`), the options passed on (`C151_options_partial`), one source only, user data through the default callbacks (`C151_user_data`) and callbacks that stay in their place (`C151_callbacks_in_bounds`). Violated in Python, and proved so: descriptor 0 and empty paths count as none (C151_python_zero), paths are cut at a NUL (C151_python_cut_path), an empty handle map and data that count as false are not passed on (C151_python_not_passed), user data without a NUL are read beyond their end (C151_python_unterminated), and messages of 4 GB or more cannot be returned (C151_python_large).
* **C152 Trees built and questioned from Python and Ruby** (partial; BoundTree.lean). Proved in both languages for all grown forests: creation (`C152_python_created_partial`, `C152_ruby_created_partial`), children, parents and places (`C152_children`, `C152_get_child_partial`), attaching (`C152_set_child`), depth, position and values with the way back (`C152_position`), samples (`C152_samples`). Violated, and proved so: from Python integers count modulo 2^64, so that get_child(2**64) is get_child(0) (C152_python_wraps); Ruby refuses them (C152_ruby_get_child). Values that no language or library represents are C132 and C137.
* **C153 Objective spaces and evaluations used from Python and Ruby** (partial; BoundEval.lean). Proved in both languages: adding objectives (C153_add_objective, `C153_add_objectives_partial`), creation (C153_python_create, C153_ruby_create, C153_create_empty), results (`C153_result_partial`, C153_ruby_result), objective values while no objective was added since the first question (`C153_objective_values_partial`; C153_kept for all programs), checks (`C153_check_partial`, C153_python_check_values, C153_ruby_check_values), comparisons (C153_compare), the objective at a position in Ruby (C153_ruby_get_objective). Violated, and proved so: an evaluation asked for its objective values keeps their number, so that after another objective is added the library writes past the array of the binding, or none are answered (C153_stale, reached by C153_stale_reached); Python's ObjectiveSpace.get_objective always raises (C153_python_get_objective), and so does checking an evaluation with features from Python (C153_python_features_check); Python keeps 32 bits of a result (C153_python_result_wraps); an empty list of values or types counts as none in Python (C153_empty_values, C153_empty_types), and Ruby refuses the empty list of values even where it is right.
* **C154 Tuners used from Python and Ruby** (partial; BoundTuner.lean). Proved for all sequences of batches: the history (C154_history), the optima among it (C154_optima), as its Pareto front where C63 holds (`C154_front_partial`), by features (C154_features), suggestions for features (C154_suggest_for), and that the configurations asked for are as many as asked and valid (`C154_ask_partial`, under the hypotheses of C50). Violated, and proved so: when the sampling fails the configurations already found are neither given to the program nor released (C154_ask_loses, reached by C154_ask_loses_reached).
* **C155 Parameters made and questioned from Python and Ruby** (partial; BoundParam.lean). Proved for both languages and all kinds of parameters: names that are plain text (`C155_python_name_partial`, `C155_ruby_name_partial`), default names (C155_default_names_differ, C155_default_name_back), the values both languages can count on (C155_understood), numerical parameters (`C155_number_back_partial`, `C155_int_created_partial`, C155_number_defaults, `C155_check_number_partial`, C155_ruby_refuses), lists (`C155_listed_created_partial`, C155_listed_back, C155_check_listed, C155_compare, C155_compare_unlisted), check_values from Python, samples. Violated: in Python names end at a NUL (C155_python_nul), integers and positions beyond 64 bits wrap around (C155_python_wraps, C155_python_index_wraps); in Ruby a string with a line that begins with a colon comes back as a symbol (C155_ruby_colon), a symbol that needs quotes comes back with them (C155_ruby_quoted), text that is not ASCII comes back different (C155_ruby_binary), and check_values raises for every list that is not empty (C155_ruby_check_values). Integer bounds 2^63 or more apart are undefined behaviour (C32).
* **C156 Distributions made and questioned from Python and Ruby** (partial; BoundDist.lean). Proved in both languages: classes (C156_class), properties read back (`C156_uniform_partial`, `C156_normal_partial`), when a distribution of integers can be created (C156_uniform_int_iff, for bounds less than 2^63 apart; see C75 for others), defaults (C156_defaults), mixtures with as many weights as components (`C156_weights_partial`), components (C156_components), areas (C156_areas), and copies of nested distributions with IEEE arithmetic (`C156_copy_partial`, within the limits of C84). Violated, and proved so: from Python bounds count modulo 2^64 (C156_python_wraps) while Ruby refuses (C156_ruby_refuses); from Ruby floats given for integers lose what is after the point (C156_float_bounds); from Python missing weights are zeros, so that the last components are never drawn (C156_python_pads, C156_padded_witness), where Ruby refuses (C156_ruby_weights); Python multivariate distributions accept weights and ignore them (C156_weights_ignored).
* **C157 Sampling is reproducible once generators are seeded** (partial; Seeded.lean). Proved: same answers for programs that seed first, from any two worlds that agree on the seeded generators (C157_replay) and from nothing (C157_again); seeding again (C157_reseed); generators that are left alone (C157_others); sampling with a generator is sampling with streams drawn from the distributions (C157_streams), so that what is proved for all streams holds of it; sampled configurations are valid (`C157_sample_valid_partial`, for parameters whose bounds are numbers: C50 shows that others fail). Seeding is needed (C157_unseeded). That gsl_rng_set makes the state depend on the seed and the type alone is taken from the documentation of the GSL.
* **C158 Configurations, features and seeds from Python and Ruby** (partial; BoundConfig.lean). Proved in both languages: creation with a list that is not empty (C158_python_create, C158_ruby_create) and without one (C158_create_blank), copies (C158_copy, C158_copy_valid, with C158_returns for each language, for spaces with a parameter, Booleans that are 0 or 1 and texts without NUL), checks (C158_check_created, C158_python_check_values, C158_ruby_check_values, where conditions and clauses have a value), the default configuration (`C158_default_partial`, see C49), samples (`C158_sample_partial`, `C158_samples_partial`, under the hypotheses of C50), seeds of 64 bits (`C158_seed_partial`, C158_ruby_seed). Violated, and proved so: in Python an empty list creates a configuration without values, and Ruby refuses it even where it is right (C158_empty_values); check_values of a features space always raises (C158_features_check_values, from C67); when sampling fails the configurations already found are neither given to the program nor released (C158_samples_loses, reached by C158_samples_loses_reached); from Python seeds count modulo 2^64 and in both languages negative ones are taken for large ones (C158_seed_wraps).
* **C159 Tree spaces and tree configurations used from Python and Ruby** (partial; BoundTreeSpace.lean). Proved in both languages: creation with numbers that fit in 64 bits (C159_create), equality (C159_equal), the questions asked of the space (C159_asks_space, C159_other_space), that answers stay whatever calls follow (C159_answers_stay, with C159_check_changes for what can change) and so that what an object keeps is what would be answered now (C159_kept), samples (`C159_samples_partial`, C159_samples_counts, up to arity 2^53), and that valid configurations have a node and values when no place of the tree is empty (C159_full_usable). Violated, and proved so: from Python the numbers of a position count modulo 2^64 (C159_python_wraps); a sample may be an empty place, valid but without node or values (C159_sample_no_node); when a draw fails the configurations already drawn are neither given to the program nor released (C159_samples_loses). Configurations of dynamic spaces that were asked before answer as new ones do, whatever the callback does by then (C159_dynamic_kept), and what they answer is what is found in the tree of the space (C159_dynamic_finds); the rest about dynamic spaces is C73.
* **C160 Objects of Python and Ruby as equals, members and keys** (partial; BoundIdentity.lean). Proved in both languages: equality of parameters (C160_parameters_equal), parameters found in the lists of any space at their position (C160_found), and dictionaries questioned with the very object a value was kept under (`C160_keys_partial`). Violated, and proved so: in Python no parameter can be a key (C160_python_parameters); in Ruby a parameter given back by a space is equal to the one it was made with and yet another key (C160_ruby_parameters); in both, two objects for the same space, distribution, expression, tuner, tree or generator are not even equal (C160_others). Configurations, features, evaluations and tree configurations are those of C149.
* **C161 Exceptions raised in callbacks written in Ruby** (partial; RbErrors.lean). Proved for all programs whose exceptions have a text without NUL and are StandardErrors, with callbacks nested to any depth, handled or not (C161_surfaces_partial), by showing that on them Ruby does what Python does (C138) and that the library sees the code of each failure; an empty text is reported too (C161_no_text). Violated, and proved so: exceptions that are no StandardError (Interrupt, NotImplementedError) pass the rescue clauses, and an exception whose text has a NUL makes the report itself raise; in both cases ffi gives the library a success and raises the exception later (C161_exit, C161_nul). What ffi does then is stated in the model from its manual and source, not from /repo.
* **C162 A search taken up again from a saved space** (partial; Resumed.lean, ResumedTuner.lean). Any number of configurations, every state of the generator, every way of drawing: C162_goes_on and C162_many whenever the distributions come back identical, and C162_resume_partial from the bytes written to the state of the generator; C162_tuner_partial for a random tuner, with or without features, asked for configurations and suggestions and told evaluations in any order, with C162_suggests for what is suggested. False between byte orders or sizes of state, proved (C162_restarts): the space read starts again with a new generator and no error. The limits of C87 (shared expressions, clauses without value on the default, distributions that change) remain.

## 6. Coverage of the code

Per file of `/repo`: lines of function bodies cited by a definition of the model, and the functions for which less than
half of the body is cited. Most of the latter are accessors that check their arguments and return a field, the
`_serialize_size`/`_serialize` dispatchers on the format, and destructors; the others are not modelled.

* `base.h` 72/72
* `binding.c` 66/69: ccs_binding_get_ops
* `binding_internal.h` 169/169
* `cconfigspace.c` 807/813: ccs_get_version, ccs_get_version_string
* `cconfigspace_internal.h` 361/441: ccs_is_little_endian, ccs_bswap_uint8, ccs_bswap_uint16, ccs_zigzag_encode_int8, ccs_zigzag_encode_int16, ccs_zigzag_decode_int8, ccs_zigzag_decode_int16, _ccs_serialize_bin_size_size, _ccs_serialize_bin_size, _ccs_deserialize_bin_size, _ccs_serialize_bin_size_string, _ccs_serialize_bin_string, _ccs_deserialize_bin_string, _ccs_serialize_bin_size_ccs_blob, _ccs_serialize_bin_ccs_blob
* `configuration.c` 139/149: ccs_configuration_get_ops, _ccs_configuration_hash, _ccs_configuration_cmp
* `configuration_deserialize.h` 69/69
* `configuration_space.c` 1143/1143
* `configuration_space_deserialize.h` 199/199
* `context.c` 52/52
* `context_deserialize.h` 19/19
* `context_internal.h` 138/138
* `datum_hash.h` 53/53
* `distribution.c` 270/273: _ccs_distribution_get_ops
* `distribution_deserialize.h` 253/253
* `distribution_internal.h` 42/52: _ccs_serialize_bin_ccs_distribution_common_data, _ccs_deserialize_bin_ccs_distribution_common_data
* `distribution_mixture.c` 359/364: _ccs_distribution_mixture_get_bounds
* `distribution_multivariate.c` 251/254: ccs_distribution_get_ops
* `distribution_normal.c` 399/435
* `distribution_roulette.c` 184/184
* `distribution_uniform.c` 355/355
* `error_stack.c` 117/117
* `evaluation.c` 318/332: ccs_evaluation_get_ops, _numeric_compare
* `evaluation_deserialize.h` 84/84
* `expression.c` 934/1196: ccs_expression_get_ops, _ccs_string_cmp, _ccs_expr_greater_eval, _ccs_expr_less_or_equal_eval, _ccs_expr_greater_or_equal_eval, _ccs_expr_list_eval, _ccs_serialize_bin_size_ccs_expression_literal_data, _ccs_serialize_bin_ccs_expression_literal_data, _ccs_serialize_bin_size_ccs_expression_literal, _ccs_serialize_bin_ccs_expression_literal, _ccs_expression_literal_serialize_size, _ccs_expression_literal_serialize, _ccs_serialize_bin_size_ccs_expression_variable_data, _ccs_serialize_bin_ccs_expression_variable_data, _ccs_serialize_bin_size_ccs_expression_variable, _ccs_serialize_bin_ccs_expression_variable, _ccs_expression_variable_serialize_size, _ccs_expression_variable_serialize, _parameter_sort
* `expression_deserialize.h` 143/143
* `features.c` 133/145: ccs_features_get_ops, _ccs_features_hash, _ccs_features_cmp
* `features_deserialize.h` 68/68
* `features_evaluation.c` 358/372: ccs_features_evaluation_get_ops, _numeric_compare
* `features_evaluation_deserialize.h` 91/91
* `features_space.c` 227/227
* `features_space_deserialize.h` 65/65
* `features_tuner.c` 109/112: ccs_features_tuner_get_ops
* `features_tuner_deserialize.h` 246/247
* `features_tuner_internal.h` 31/31
* `features_tuner_random.c` 329/383: _ccs_features_tuner_random_get_history
* `features_tuner_user_defined.c` 298/298
* `interval.c` 116/116
* `map.c` 262/262
* `map_deserialize.h` 69/69
* `objective_space.c` 377/377
* `objective_space_deserialize.h` 117/117
* `parameter.c` 115/118: ccs_parameter_get_ops
* `parameter_categorical.c` 310/356: _ccs_serialize_bin_size_ccs_parameter_categorical, _ccs_serialize_bin_ccs_parameter_categorical, _ccs_parameter_categorical_serialize_size, _ccs_parameter_categorical_serialize
* `parameter_deserialize.h` 169/169
* `parameter_internal.h` 53/58
* `parameter_numerical.c` 227/284: _ccs_serialize_bin_size_ccs_parameter_numerical, _ccs_serialize_bin_ccs_parameter_numerical, _ccs_parameter_numerical_serialize_size, _ccs_parameter_numerical_serialize
* `parameter_string.c` 107/166: _ccs_serialize_bin_size_ccs_parameter_string_data, _ccs_serialize_bin_ccs_parameter_string_data, _ccs_serialize_bin_size_ccs_parameter_string, _ccs_serialize_bin_ccs_parameter_string, _ccs_parameter_string_serialize_size, _ccs_parameter_string_serialize
* `rng.c` 130/130
* `rng_deserialize.h` 64/64
* `tree.c` 410/410
* `tree_configuration.c` 196/198
* `tree_configuration_deserialize.h` 85/85
* `tree_deserialize.h` 94/94
* `tree_evaluation.c` 332/335: ccs_tree_evaluation_get_ops
* `tree_evaluation_deserialize.h` 84/84
* `tree_internal.h` 14/14
* `tree_space.c` 130/133: _ccs_tree_space_get_ops
* `tree_space_deserialize.h` 129/129
* `tree_space_dynamic.c` 204/204
* `tree_space_internal.h` 22/22
* `tree_space_static.c` 126/126
* `tree_tuner.c` 83/86: ccs_tree_tuner_get_ops
* `tree_tuner_deserialize.h` 227/227
* `tree_tuner_internal.h` 23/23
* `tree_tuner_random.c` 282/282
* `tree_tuner_user_defined.c` 275/275
* `tuner.c` 79/82: ccs_tuner_get_ops
* `tuner_deserialize.h` 227/228
* `tuner_internal.h` 24/24
* `tuner_random.c` 278/278
* `tuner_user_defined.c` 272/272

## 7. Wrong programs

`seeded/LOG.jsonl` records edits of the model that imitate realistic mistakes (a dropped test, an exchanged operand, a
wrong bound, a missing reference, ...). For each edit the whole model is rebuilt in a copy and the theorems that no longer
hold are listed; a theorem whose claim is broken by the edit but that still checks is tightened. Edits that repair a fault of
the code are included: there the theorem that states the fault must fail.
