import Verif.Lemmas.Strings

/-! # C135, C136: strings in memory

`Mem.act` and `Mem.use` run one action of a program on the memory: the blocks that are allocated, the elements of a map or
of a string parameter, and the buffers of the program.  `Reads h w v` says that the datum `w` can be read in the heap
`h` and reads `v`; `Fair` that the program passes strings as documented; `Heard` that the program runs to its end
and what it said by its calls (`Verif/Spec/Strings.lean`).  `jen` is any byte hash. -/

namespace CCS.Props

open CCS Mem Mem.Spec CCS.Spec

section
variable (jen : Bytes → BitVec 32) (little : Bool)

/-! ## C135 -/

/-- **C135** (partial) A program that uses one map and passes each string either flagged as transient, or in a buffer that
it leaves alone from then on, runs without undefined behaviour, all its `ccs_map_set` succeed, and at the end a
lookup gives a datum that can be read and that reads what was last set for that key, as it read when it was set; so
do the keys and values that are enumerated.  What the program does to its buffers in between does not matter.
Missing for the full claim: strings that were taken from the map itself (below). -/
theorem C135_strings_of_maps_partial (acts : List Act) (hf : Fair jen little start acts) :
    ∃ said w, Heard jen little start acts said w ∧ (∀ e ∈ said, ∀ k v, e.1 = .set k v → e.2 = none) ∧
      (∀ k x, Reads w.heap k.w x → ∃ c, getEntry jen little w k = some c ∧
        Reads w.heap c.w ((FMap.history (fun _ => none) said x).getD .none)) ∧
      (∀ e ∈ pairs w, ∃ x y, Reads w.heap e.1.w x ∧ Reads w.heap e.2.w y ∧ FMap.history (fun _ => none) said x = some y) := by
  obtain ⟨said, w, h1, hi, h3⟩ := run_spec Inv.start hf
  refine ⟨said, w, h1, h3, fun k x hk => ?_, fun e he => ?_⟩
  · have hsd : ∀ r ∈ w.records, ∃ a b, Sound jen little w.heap r a b := fun r hr => by
      obtain ⟨a, b, h1, -⟩ := hi.sound r hr; exact ⟨a, b, h1⟩
    rw [getEntry]
    rcases search_spec hk hsd with ⟨h4, h5⟩ | ⟨r, hr, h4, h5⟩
    · rw [h4, hi.absent h5]; exact ⟨_, rfl, .plain (by simp)⟩
    · rw [h4]
      obtain ⟨a, b, ⟨h6, h7, -⟩, h8⟩ := hi.sound r hr
      have := reads_unique h6 h5; subst this
      rw [h8]; exact ⟨_, rfl, h7⟩
  · obtain ⟨r, hr, rfl⟩ := List.mem_map.1 he
    obtain ⟨a, b, ⟨h6, h7, -⟩, h8⟩ := hi.sound r hr
    exact ⟨a, b, h6, h7, h8⟩

end

/-- A program that keeps to the documentation: the buffer is written again between the calls and freed at the end; the
key of the second call is a buffer it leaves alone. -/
def exTransient : List Act :=
  [.buffer [65#8], .set { w := .str (some ⟨0, 0⟩), transient := true } { w := .str (some ⟨0, 0⟩), transient := true },
   .rewrite 0 [66#8], .buffer [67#8], .set { w := .str (some ⟨2, 0⟩) } { w := .str (some ⟨0, 0⟩), transient := true },
   .free 0]

/-- The hypothesis is met. -/
example : Fair (fun _ => 0#32) true start exTransient := by
  refine ⟨trivial, fun c w' h => ?_⟩; cases h
  refine ⟨⟨⟨⟨_, .text (texts := [[65#8]]) rfl rfl⟩, .inl rfl⟩, ⟨_, .text (texts := [[65#8]]) rfl rfl⟩, .inl rfl⟩, fun c w' h => ?_⟩; cases h
  refine ⟨.head _, fun c w' h => ?_⟩; cases h
  refine ⟨trivial, fun c w' h => ?_⟩; cases h
  refine ⟨⟨⟨⟨_, .text (texts := [[67#8]]) rfl rfl⟩, .inr fun p hp => ?_⟩, ⟨_, .text (texts := [[66#8]]) rfl rfl⟩, .inl rfl⟩, fun c w' h => ?_⟩
  · cases hp
    refine ⟨.head _, fun a ha => ?_⟩
    rcases List.mem_singleton.1 ha with rfl
    intro h; cases h
  cases h
  exact ⟨.tail _ (.head _), fun c w' h => trivial⟩

/-- **C135** fails for keys taken from the map: after any such program, changing the value of a string key that
`ccs_map_get_pairs` returned, and that the map had copied, is undefined: the old key is freed before the hash of the
new one, which is the same pointer, is computed. -/
theorem C135_own_key_is_freed (jen : Bytes → BitVec 32) (little : Bool) (acts : List Act) (hf : Fair jen little start acts) :
    ∃ said w, Heard jen little start acts said w ∧ ∀ e ∈ pairs w, ∀ p, e.1.w = .str (some p) → p.block ∉ w.caller →
      ∀ v x y, Reads w.heap e.2.w x → Reads w.heap v.w y → x ≠ y → setEntry jen little w { w := e.1.w } v = .ub := by
  obtain ⟨said, w, h1, hi, -⟩ := run_spec Inv.start hf
  refine ⟨said, w, h1, fun e he p hp hcal v x y hx hy hxy => ?_⟩
  obtain ⟨r, hr, rfl⟩ := List.mem_map.1 he
  have hsd : ∀ r ∈ w.records, ∃ a b, Sound jen little w.heap r a b := fun r hr => by
    obtain ⟨a, b, h1, -⟩ := hi.sound r hr; exact ⟨a, b, h1⟩
  obtain ⟨a, b, ⟨h2, h3, -⟩, -⟩ := hi.sound r hr
  simp only at hp hx
  have hblk : p.block = r.block := ((hi.anchored r hr).1 p hp).resolve_right fun h => hcal h.1
  have hlt := hi.recordLt r hr
  obtain ⟨ck, hck⟩ : ∃ ck, copied w.heap v = some ck := by
    obtain ⟨vw, tr⟩ := v
    simp only at hy
    cases hy with
    | null => exact ⟨none, rfl⟩
    | plain _ => exact ⟨none, rfl⟩
    | text h4 h5 =>
      cases tr with
      | true => exact ⟨some _, by simp [copied, Heap.read, h4, h5]; rfl⟩
      | false => exact ⟨none, by simp [copied]⟩
  have hrep : replace jen little w (some r) { w := .str (some p) } v = .ub := by
    have hck' : copied w.heap { w := .str (some p) } = some none := by simp [copied]
    simp only [replace, hck', hck, placed, addRecord, hashOf, Word.load, removeOld, removeRecord, Heap.read, Heap.free, hblk, if_true]
  rw [setEntry]
  simp only [hp]
  rcases search_spec h2 hsd with ⟨-, h5⟩ | ⟨r', hr', h4, h5⟩
  · exact absurd h2 (h5 r hr)
  · have := hi.single r hr r' hr' _ h2 h5
    subst this
    rw [hp] at h4
    rw [h4]
    obtain ⟨o, ho, heq⟩ := compare_reads (little := little) hy hx
    simp only [ho]
    cases o with
    | eq => exact absurd (heq.1 rfl).symm hxy
    | lt => exact hrep
    | gt => exact hrep

/-- Such a key exists: a program that counts the occurrences of a word by updating the map through the keys it
enumerates. -/
example : ∃ w k, Call.run (act (fun _ => 0#32) true) start
    [.buffer [65#8], .set { w := .str (some ⟨0, 0⟩), transient := true } { w := .plain (.int 1#64) }, .free 0] =
      some ([none, none, none], w) ∧ pairs w = [(k, { w := .plain (.int 1#64) })] ∧ k.w = .str (some ⟨1, 0⟩) ∧ w.caller = [] ∧
    setEntry (fun _ => 0#32) true w k { w := .plain (.int 2#64) } = .ub :=
  ⟨_, _, rfl, rfl, rfl, rfl, rfl⟩

/-- **C135** fails for a value taken from the map: stored under another key, it can no longer be read once the first key
is deleted. -/
theorem C135_own_value_is_freed : ∃ jen little acts codes w v codes' w' c,
    Call.run (act jen little) start acts = some (codes, w) ∧ getEntry jen little w { w := .plain (.int 1#64) } = some v ∧
    (∃ x, Reads w.heap v.w x) ∧
    Call.run (act jen little) w [.set { w := .plain (.int 2#64) } v, .del { w := .plain (.int 1#64) }] = some (codes', w') ∧
    getEntry jen little w' { w := .plain (.int 2#64) } = some c ∧ ∀ x, ¬ Reads w'.heap c.w x := by
  refine ⟨fun _ => 0#32, true, [.buffer [65#8], .set { w := .plain (.int 1#64) } { w := .str (some ⟨0, 0⟩), transient := true }],
    [none, none], _, { w := .str (some ⟨1, 1⟩) }, [none, none], _, { w := .str (some ⟨1, 1⟩) }, rfl, rfl,
    ⟨.str (some [65#8]), .text (texts := [[], [65#8]]) rfl rfl⟩, rfl, rfl, fun x hx => ?_⟩
  have := reads_iff.1 hx
  cases this

/-! ## C136 -/

section
variable (jen : Bytes → BitVec 32) (little : Bool)

/-- **C136** A program that uses one string parameter and `n` bindings and passes strings as documented (flagged as
transient, in a buffer that it leaves alone from then on, or taken from the parameter) runs without undefined
behaviour, and at the end each binding holds a datum that can be read and that reads the value it was last given, as it
read when it was given, whatever the program did to its buffers. -/
theorem C136_strings_of_bindings (n : Nat) (us : List Use) (hf : FairUse jen little (unused n) us) :
    ∃ b vs, Told jen little (unused n) us (List.replicate n .inactive) b vs ∧ b.held.length = n ∧ vs.length = n ∧
      ∀ (i : Nat) c v, b.held[i]? = some c → vs[i]? = some v → Reads b.world.heap c.w v := by
  obtain ⟨b, vs, h1, h2⟩ := use_run_spec (BInv.unused n) hf
  have hlen : ∀ {us b vs b' vs'}, Told jen little b us vs b' vs' → vs'.length = vs.length := by
    intro us b vs b' vs' h
    induction h with
    | nil => rfl
    | own _ _ ih => exact ih
    | validate _ _ ih => exact ih
    | put _ _ _ ih => simpa using ih
    | refused _ _ ih => exact ih
  have := hlen h1
  simp only [List.length_replicate] at this
  exact ⟨b, vs, h1, h2.same.trans this, this, fun i c v h3 h4 => (h2.held i c v h3 h4).1⟩

/-- **C136** In every state such a program reaches, validating a string and then another one with the same content, in any
buffer, gives the very same pointer, and nothing more is allocated. -/
theorem C136_one_copy (n : Nat) (us : List Use) (hf : FairUse jen little (unused n) us) : ∃ b vs,
    Told jen little (unused n) us (List.replicate n .inactive) b vs ∧
    ∀ c s, Reads b.world.heap c.w (.str s) → ∃ r w, keep jen little b.world c = .ret none (r, w) ∧ Reads w.heap r.w (.str s) ∧
      ∀ c', Reads w.heap c'.w (.str s) → keep jen little w c' = .ret none (r, w) := by
  obtain ⟨b, vs, h1, ⟨f, hi⟩, -, -⟩ := use_run_spec (BInv.unused n) hf
  have hstr : ∀ (h : Heap) (c : Cell) s, Reads h c.w (.str s) → ∃ p, c.w = .str p := by
    intro h c s hr
    obtain ⟨cw, t⟩ := c
    simp only at hr
    cases hr with
    | null => exact ⟨_, rfl⟩
    | text _ _ => exact ⟨_, rfl⟩
    | plain hv => exact absurd rfl (hv s)
  refine ⟨b, vs, h1, fun c s hc => ?_⟩
  obtain ⟨p, hp⟩ := hstr _ _ _ hc
  obtain ⟨r, w, f', h2, hi', -, h3, ⟨o, ho, hor⟩, -⟩ := keep_spec hi hc hp
  refine ⟨r, w, h2, h3, fun c' hc' => ?_⟩
  obtain ⟨q, hq⟩ := hstr _ _ _ hc'
  have hsd : ∀ r ∈ w.records, ∃ a b, Sound jen little w.heap r a b := fun r hr => by
    obtain ⟨a, b, h1, -⟩ := hi'.sound r hr; exact ⟨a, b, h1⟩
  rcases search_spec hc' hsd with ⟨-, h5⟩ | ⟨o', ho', h4, h5⟩
  · exact absurd (hor ▸ h3) (h5 o ho)
  · have := hi'.single o ho o' ho' _ (hor ▸ h3) h5
    subst this
    rw [hq] at h4
    simp only [keep, hq, h4, hor]

end

/-- The hypothesis of C136 is met: the buffer is given to a binding, written again, given to the other binding and freed. -/
example : FairUse (fun _ => 0#32) true (unused 2)
    [.own (.buffer [65#8]), .put 0 { w := .str (some ⟨0, 0⟩), transient := true }, .own (.rewrite 0 [66#8]),
     .put 1 { w := .str (some ⟨0, 0⟩), transient := true }, .own (.free 0), .put 1 { w := .str (some ⟨1, 0⟩) }] := by
  refine ⟨trivial, fun c w' h => ?_⟩; cases h
  refine ⟨⟨⟨_, .text (texts := [[65#8]]) rfl rfl⟩, .inl rfl⟩, fun c w' h => ?_⟩; cases h
  refine ⟨.head _, fun c w' h => ?_⟩; cases h
  refine ⟨⟨⟨_, .text (texts := [[66#8]]) rfl rfl⟩, .inl rfl⟩, fun c w' h => ?_⟩; cases h
  refine ⟨.head _, fun c w' h => ?_⟩; cases h
  exact ⟨⟨⟨_, .text (texts := [[65#8]]) rfl rfl⟩, .inr (.inr ⟨_, .head _, rfl⟩)⟩, fun c w' h => trivial⟩

end CCS.Props
