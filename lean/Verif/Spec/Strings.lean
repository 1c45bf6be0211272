import Verif.Model.Strings
import Verif.Spec.Map

/-! # Specification: strings in memory

When a datum can be read, what a program has to respect when it passes strings, and what it said by its calls. -/

namespace CCS.Mem.Spec

open CCS Mem

/-- The datum can be read now, and this is what is read. -/
inductive Reads (h : Heap) : Word → Value → Prop
  | null : Reads h (.str none) (.str none)
  | text {p : Ptr} {texts : List Bytes} {s : Bytes} : h.blocks p.block = some texts → texts[p.slot]? = some s →
      Reads h (.str (some p)) (.str (some s))
  | plain {v : Value} : (∀ s, v ≠ .str s) → Reads h (.plain v) v

/-- The action changes or frees the block. -/
def touches (b : Nat) : Act → Prop
  | .rewrite x _ => x = b
  | .free x => x = b
  | _ => False

/-- The string is in a buffer of the program that none of the later actions touches. -/
def Lasting (w : World) (later : List Act) (c : Cell) : Prop :=
  ∀ p, c.w = .str (some p) → p.block ∈ w.caller ∧ ∀ a ∈ later, ¬ touches p.block a

/-- A datum is given as documented: it can be read now and, unless it is flagged as transient, it stays allocated and
unchanged. -/
def Given (w : World) (later : List Act) (c : Cell) : Prop :=
  (∃ v, Reads w.heap c.w v) ∧ (c.transient = true ∨ Lasting w later c)

/-- The action respects the documentation; `later` are the ones that follow. -/
def Proper (w : World) (later : List Act) : Act → Prop
  | .buffer _ => True
  | .rewrite b _ => b ∈ w.caller
  | .free b => b ∈ w.caller
  | .set k v => Given w later k ∧ Given w later v
  | .del k => ∃ v, Reads w.heap k.w v
  | .clear => True

/-- All the actions do, each one in the memory it finds. -/
def Fair (jen : Bytes → BitVec 32) (little : Bool) : World → List Act → Prop
  | _, [] => True
  | w, a :: later => Proper w later a ∧ ∀ c w', act jen little w a = .ret c w' → Fair jen little w' later

/-- A run: what the program said by its calls, as a history of a map of values (`Spec.FMap.history`), and the memory at
the end. -/
inductive Heard (jen : Bytes → BitVec 32) (little : Bool) : World → List Act → List (MapOp × Option Err) → World → Prop
  | nil {w} : Heard jen little w [] [] w
  | buffer {w w' w'' c s later h} : act jen little w (.buffer s) = .ret c w' → Heard jen little w' later h w'' →
      Heard jen little w (.buffer s :: later) h w''
  | rewrite {w w' w'' c b s later h} : act jen little w (.rewrite b s) = .ret c w' → Heard jen little w' later h w'' →
      Heard jen little w (.rewrite b s :: later) h w''
  | free {w w' w'' c b later h} : act jen little w (.free b) = .ret c w' → Heard jen little w' later h w'' →
      Heard jen little w (.free b :: later) h w''
  | set {w w' w'' c k v x y later h} : Reads w.heap k.w x → Reads w.heap v.w y → act jen little w (.set k v) = .ret c w' →
      Heard jen little w' later h w'' → Heard jen little w (.set k v :: later) ((.set { v := x } { v := y }, c) :: h) w''
  | del {w w' w'' c k x later h} : Reads w.heap k.w x → act jen little w (.del k) = .ret c w' →
      Heard jen little w' later h w'' → Heard jen little w (.del k :: later) ((.del { v := x }, c) :: h) w''
  | clear {w w' w'' c later h} : act jen little w .clear = .ret c w' → Heard jen little w' later h w'' →
      Heard jen little w (.clear :: later) ((.clear, c) :: h) w''

/-- Nothing is allocated and the map is new. -/
def start : World := ⟨⟨fun _ => none, 0⟩, [], []⟩

/-! ## String parameters -/

/-- The actions on the program's own buffers. -/
def buffers : List Use → List Act
  | [] => []
  | .own a :: us => a :: buffers us
  | _ :: us => buffers us

/-- A datum is given as documented: it can be read now and, unless it is flagged as transient, it stays allocated and
unchanged, being in a buffer that is not touched later or a string of the parameter itself. -/
def GivenTo (b : Bound) (later : List Use) (c : Cell) : Prop :=
  (∃ v, Reads b.world.heap c.w v) ∧
    (c.transient = true ∨ Lasting b.world (buffers later) c ∨ ∃ r ∈ b.world.records, r.key.w = c.w)

/-- The action respects the documentation. -/
def ProperUse (b : Bound) (later : List Use) : Use → Prop
  | .own (.rewrite x _) => x ∈ b.world.caller
  | .own (.free x) => x ∈ b.world.caller
  | .own _ => True
  | .validate c => ∃ v, Reads b.world.heap c.w v
  | .put _ c => GivenTo b later c

/-- All the actions do, each one in the memory it finds. -/
def FairUse (jen : Bytes → BitVec 32) (little : Bool) : Bound → List Use → Prop
  | _, [] => True
  | b, u :: later => ProperUse b later u ∧ ∀ c b', use jen little b u = .ret c b' → FairUse jen little b' later

/-- A run, with the values the bindings were given, each one as it read when it was given and only if it was accepted. -/
inductive Told (jen : Bytes → BitVec 32) (little : Bool) : Bound → List Use → List Value → Bound → List Value → Prop
  | nil {b vs} : Told jen little b [] vs b vs
  | own {b b' b'' a c later vs vs'} : use jen little b (.own a) = .ret c b' → Told jen little b' later vs b'' vs' →
      Told jen little b (.own a :: later) vs b'' vs'
  | validate {b b' b'' c x later vs vs'} : use jen little b (.validate c) = .ret x b' → Told jen little b' later vs b'' vs' →
      Told jen little b (.validate c :: later) vs b'' vs'
  | put {b b' b'' i c x later vs vs'} : Reads b.world.heap c.w x → use jen little b (.put i c) = .ret none b' →
      Told jen little b' later (vs.set i x) b'' vs' → Told jen little b (.put i c :: later) vs b'' vs'
  | refused {b b' b'' i c e later vs vs'} : use jen little b (.put i c) = .ret (some e) b' →
      Told jen little b' later vs b'' vs' → Told jen little b (.put i c :: later) vs b'' vs'

/-- A new string parameter and `n` bindings without a value yet. -/
def unused (n : Nat) : Bound := ⟨start, List.replicate n { w := .plain .inactive }⟩

end CCS.Mem.Spec
