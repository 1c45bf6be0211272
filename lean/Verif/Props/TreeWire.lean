import Verif.Lemmas.TreeWire
import Verif.Props.Tree

/-!
# C12: serialization of trees

`Spec.SameTree g h g' h'`: from `h` and `h'` the same positions exist, and the nodes at each position show the same arity,
value, own weight, bias and user data, bit for bit.
-/

namespace CCS.Props

open CCS Spec

/-- **C12 (partial)** A tree built by any history of calls (or any node of it), with any arithmetic: the announced size is
exact, writing fits exactly, and reading, on a host of any byte order and next to any other trees, gives a root of a tree
that looks the same at every position; the other trees are not changed.

Missing: boolean values that need more than 32 bits (`C12_wide_boolean`). -/
theorem C12_round_trip_partial {ops : FloatOps} (little little' : Bool) (addr : Nat → BitVec 64) {g : Grove}
    (hg : GrownForest ops g.trees) {h : Nat} {n : TreeNode} (hn : g.trees.node h = some n) (hs : StorableTree g h)
    {room : Grove} (hr : GrownForest ops room.trees) :
    ∃ size g' h', Forest.szTree g addr h = .ok size ∧
      RoundTrips (Forest.serTree little g addr h) size (Forest.deTree ops little' room) (g', h') ∧
      GrownForest ops g'.trees ∧ SameTree g h g' h' ∧ g'.trees.getParent h' = .ok none ∧
      (∀ k, k < room.trees.length → g'.trees.node k = room.trees.node k ∧ g'.data k = room.data k) := by
  have hh := Forest.grown_healthy hg
  obtain ⟨d, hd⟩ := hh.linked.rooted hn
  obtain ⟨h1, h2⟩ := Forest.writes_tree little addr hh (fuel := g.trees.length + 1) hd (by omega) hs
  obtain ⟨g', h', r, p⟩ := Forest.reads_tree little' addr hg (fuel := g.trees.length + 1) hd (by omega) hs room hr
  refine ⟨_, g', h', h2, ⟨_, h1, rfl, ?_⟩, p.grown, p.same, ?_, p.kept⟩
  · intro tail
    exact r _ (by rw [List.length_append]; omega) tail
  · obtain ⟨m, hm, hp⟩ := p.root
    simp [Forest.getParent, hm, hp]

/-- What is written, then read, is the outcome of `C12_round_trip_partial`. -/
theorem tree_read {ops : FloatOps} {little little' : Bool} {addr : Nat → BitVec 64} {g : Grove}
    (hg : GrownForest ops g.trees) {h : Nat} {n : TreeNode} (hn : g.trees.node h = some n) (hs : StorableTree g h)
    {room : Grove} (hr : GrownForest ops room.trees) {bs : Bytes} {g' : Grove} {h' : Nat}
    (hw : WritesBytes (Forest.serTree little g addr h) bs) (hrd : ReadsBack (Forest.deTree ops little' room) bs (g', h')) :
    GrownForest ops g'.trees ∧ SameTree g h g' h' := by
  obtain ⟨size, g1, h1, -, ⟨bs1, hw1, -, hrd1⟩, h2, h3, -⟩ := C12_round_trip_partial little little' addr hg hn hs hr
  have hbs : bs = bs1 := by
    have e1 := hw ⟨[], bs.length + bs1.length⟩
    have e2 := hw1 ⟨[], bs.length + bs1.length⟩
    rw [if_pos (show bs.length ≤ bs.length + bs1.length by omega)] at e1
    rw [if_pos (show bs1.length ≤ bs.length + bs1.length by omega), e1] at e2
    have := congrArg WBuf.data (Out.ok.inj e2)
    simpa using this
  subst hbs
  have e1 := hrd []
  have e2 := hrd1 []
  rw [e1] at e2
  have := Out.ok.inj e2
  simp only [Prod.mk.injEq] at this
  obtain ⟨⟨rfl, rfl⟩, -⟩ := this
  exact ⟨h2, h3⟩

/-- **C12 (partial)** With IEEE arithmetic, after writing and reading a tree every node has the same total, bit for bit,
and, when its total is positive, the same sampling areas.

Missing: as for `C12_round_trip_partial`, and nodes with a NaN total (`C12_nan_total`); the areas of a node whose total
is zero are never used. -/
theorem C12_areas_partial {little little' : Bool} {addr : Nat → BitVec 64} {g : Grove}
    (hg : GrownForest ieee g.trees) {h : Nat} {n : TreeNode} (hn : g.trees.node h = some n) (hs : StorableTree g h)
    {room : Grove} (hr : GrownForest ieee room.trees) {bs : Bytes} {g' : Grove} {h' : Nat}
    (hw : WritesBytes (Forest.serTree little g addr h) bs) (hrd : ReadsBack (Forest.deTree ieee little' room) bs (g', h'))
    {p : List Nat} {k : Nat} {m : TreeNode} (hl : Leads g.trees h p k) (hm : g.trees.node k = some m) :
    ∃ k' m', Leads g'.trees h' p k' ∧ g'.trees.node k' = some m' ∧ m'.sum = m.sum ∧
      (F64.lt F64.zero m.sum = true → m'.areas = m.areas) := by
  obtain ⟨hg', hsame⟩ := tree_read hg hn hs hr hw hrd
  obtain ⟨k', h1, h2⟩ := Forest.leads_sameTree hl hsame
  obtain ⟨x, x', h3, h4, -, h5, h6⟩ := Forest.sameTree_areas hg hg' h2
  rw [hm] at h3; cases h3
  exact ⟨k', x', h1, h4, h5.symm, fun h => (h6 h).symm⟩

/-- **C12 (partial)** With IEEE arithmetic and the same draws, a tree and what is read back of it are sampled identically,
whatever the number of samples, also when sampling reports an error.

Missing: as for `C12_areas_partial`. -/
theorem C12_samples_partial {little little' : Bool} {addr : Nat → BitVec 64} {g : Grove}
    (hg : GrownForest ieee g.trees) {h : Nat} {n : TreeNode} (hn : g.trees.node h = some n) (hs : StorableTree g h)
    (hnan : ∀ p k m, Leads g.trees h p k → g.trees.node k = some m → F64.isNaN m.sum = false)
    {room : Grove} (hr : GrownForest ieee room.trees) {bs : Bytes} {g' : Grove} {h' : Nat}
    (hw : WritesBytes (Forest.serTree little g addr h) bs) (hrd : ReadsBack (Forest.deTree ieee little' room) bs (g', h'))
    (guess : Int → F64 → Int) (turns fuel : Nat) (rnd : Nat → F64) (count : Nat) :
    g'.trees.samplePositions guess turns rnd fuel h' count 0 = g.trees.samplePositions guess turns rnd fuel h count 0 := by
  obtain ⟨hg', hsame⟩ := tree_read hg hn hs hr hw hrd
  exact Forest.samplePositions_same hg hg' guess turns rnd fuel hsame hnan

/-! ### Examples -/

/-- The example tree of `Props/Tree`, with user data on its deepest node. -/
def exGrove : Grove := ⟨exTree, fun k => if k = 2 then [1#8, 2#8] else []⟩

/-- A tree with integer values and little user data can be stored. -/
theorem storable_ints {f : Forest} {data : Nat → Bytes} {h : Nat}
    (hv : (f.all fun x => match x with
      | some n => (match n.value with | .int _ => true | _ => false)
      | none => true) = true)
    (hd : ∀ k, (data k).length < 2 ^ 64) : StorableTree ⟨f, data⟩ h := by
  intro p k _
  refine ⟨fun v hg => ?_, hd k⟩
  change f.getValue k = .ok v at hg
  unfold Forest.getValue at hg
  split at hg
  · cases hg
  · rename_i n hn
    have := List.all_eq_true.mp hv _ (List.mem_of_getElem? (Forest.node_some.mp hn))
    cases hg
    simp only at this
    split at this
    · rename_i heq; rw [heq]; trivial
    · cases this

theorem exGrove_trees : exGrove.trees = exTree := by
  simp only [exGrove]

theorem exGrove_storable : StorableTree exGrove 0 := by
  refine storable_ints (by decide +kernel) fun k => ?_
  split <;> decide

/-- Non-vacuity: the example is written and read in an empty process, and its deepest node is found again. -/
example : GrownForest ieee exGrove.trees ∧ (exGrove.trees.node 0).isSome = true ∧ StorableTree exGrove 0 ∧
    GrownForest ieee (Grove.mk [] fun _ => []).trees ∧
    (∀ p k m, Leads exGrove.trees 0 p k → exGrove.trees.node k = some m → F64.isNaN m.sum = false) := by
  have key : ∀ (P : TreeNode → Bool), (exTree.all fun x => match x with | some n => P n | none => true) = true →
      ∀ h n, exTree.node h = some n → P n = true := by
    intro P hP h n hn
    have := List.all_eq_true.mp hP _ (List.mem_of_getElem? (Forest.node_some.mp hn))
    exact this
  refine ⟨by rw [exGrove_trees]; exact exTree_grown, by decide +kernel, exGrove_storable, .empty, ?_⟩
  intro p k m _ hm
  rw [exGrove_trees] at hm
  have hall := key (fun n => !F64.isNaN n.sum) (by decide +kernel)
  have := hall k m hm
  exact (Bool.not_eq_true' _).mp this

/-- The bytes of a tree, when writing succeeds. -/
def exWrite (g : Grove) (h : Nat) : Bytes :=
  match Forest.serTree true g (fun _ => 7#64) h ⟨[], 1000⟩ with
  | .ok b => b.data
  | _ => []

/-- What a question on the tree read back from some bytes answers. -/
def exRead {α : Type} (bs : Bytes) (ask : Forest → Nat → Option (Out α)) : Option (Out α) :=
  match Forest.deTree ieee false ⟨[], fun _ => []⟩ bs with
  | .ok ((g, h), _) => ask g.trees h
  | _ => none

/-- A node whose total became a NaN after its weight was 3. -/
def exNaNTotal : Forest := exGrow [.setWeight 0 0x7ff8000000000000#64, .setWeight 0 dThree, .create 1 (.int 1#64)]

theorem exNaNTotal_grown : GrownForest ieee exNaNTotal := by
  refine exGrow_step (exGrow_step (exGrow_step .empty trivial) trivial) trivial

theorem read_again {g : Grove} (hg : GrownForest ieee g.trees) {h : Nat} {n : TreeNode} (hn : g.trees.node h = some n)
    (hs : StorableTree g h) (hle : (exWrite g h).length ≠ 0) :
    ∃ g' h', WritesBytes (Forest.serTree true g (fun _ => 7#64) h) (exWrite g h) ∧
      ReadsBack (Forest.deTree ieee false ⟨[], fun _ => []⟩) (exWrite g h) (g', h') ∧
      ∀ {α : Type} (ask : Forest → Nat → Option (Out α)), exRead (exWrite g h) ask = ask g'.trees h' := by
  obtain ⟨size, g', h', -, ⟨bs, h1, -, h2⟩, -⟩ := C12_round_trip_partial true false (fun _ => 7#64) hg hn hs
    (room := ⟨[], fun _ => []⟩) .empty
  have hbs : exWrite g h = bs := by
    have := h1 ⟨[], 1000⟩
    unfold exWrite at hle ⊢
    rw [this] at hle ⊢
    by_cases hl : bs.length ≤ 1000
    · simp [hl]
    · simp [hl] at hle
  rw [hbs]
  refine ⟨g', h', h1, h2, fun ask => ?_⟩
  have := h2 []
  rw [List.append_nil] at this
  simp only [exRead, this]

/-- **C12 (negation)** A NaN total: the areas of the original depend on its history, those of what is read back do not.
With the same draw the two trees are sampled differently. -/
theorem C12_nan_total : ∃ (g : Grove) (h : Nat) (bs : Bytes) (g' : Grove) (h' : Nat) (t : F64),
    GrownForest ieee g.trees ∧ StorableTree g h ∧ UnitDraw t ∧
    WritesBytes (Forest.serTree true g (fun _ => 7#64) h) bs ∧
    ReadsBack (Forest.deTree ieee false ⟨[], fun _ => []⟩) bs (g', h') ∧
    g.trees.samplePositions Ieee.guess 9 (fun _ => t) 9 h 1 0 = some (.ok [[]]) ∧
    g'.trees.samplePositions Ieee.guess 9 (fun _ => t) 9 h' 1 0 = some (.ok [[0]]) := by
  have hs : StorableTree ⟨exNaNTotal, fun _ => []⟩ 0 := storable_ints (by decide +kernel) fun _ => by decide
  obtain ⟨n, hn⟩ : ∃ n, Forest.node exNaNTotal 0 = some n := Option.isSome_iff_exists.mp (by decide +kernel)
  obtain ⟨g', h', h1, h2, h3⟩ := read_again (g := ⟨exNaNTotal, fun _ => []⟩) exNaNTotal_grown hn hs (by decide +kernel)
  refine ⟨⟨exNaNTotal, fun _ => []⟩, 0, _, g', h', 0x3fd8000000000000#64, exNaNTotal_grown, hs, ?_, h1, h2, by decide +kernel, ?_⟩
  · exact areaHolds_of (by decide +kernel) (by decide +kernel)
  · have := h3 (fun f h => f.samplePositions Ieee.guess 9 (fun _ => 0x3fd8000000000000#64) 9 h 1 0)
    rw [← this]
    decide +kernel

/-- A tree whose value is a boolean that does not fit in 32 bits, that is, true. -/
def exWideTree : Forest := exGrow [.create 1 (.bool 0x100000000#64)]

theorem exWideTree_grown : GrownForest ieee exWideTree := by
  refine exGrow_step .empty trivial

/-- **C12 (negation)** A boolean value that is true because of its upper 32 bits is read back as false. -/
theorem C12_wide_boolean : ∃ (g : Grove) (h : Nat) (b : WBuf) (g' : Grove) (h' : Nat) (i : BitVec 64),
    GrownForest ieee g.trees ∧ Forest.serTree true g (fun _ => 7#64) h ⟨[], 1000⟩ = .ok b ∧
    Forest.deTree ieee false ⟨[], fun _ => []⟩ b.data = .ok ((g', h'), []) ∧
    g.trees.getValue h = .ok (.bool i) ∧ i ≠ 0#64 ∧ g'.trees.getValue h' = .ok (.bool 0#64) := by
  have hb : ∃ b, Forest.serTree true ⟨exWideTree, fun _ => []⟩ (fun _ => 7#64) 0 ⟨[], 1000⟩ = .ok b ∧
      b.data = exWrite ⟨exWideTree, fun _ => []⟩ 0 := by
    have hne : (exWrite ⟨exWideTree, fun _ => []⟩ 0).length ≠ 0 := by decide +kernel
    unfold exWrite at hne ⊢
    split at hne
    · rename_i b heq
      exact ⟨b, heq, rfl⟩
    · simp at hne
  obtain ⟨b, h1, h2⟩ := hb
  have hr : (match Forest.deTree ieee false ⟨[], fun _ => []⟩ (exWrite ⟨exWideTree, fun _ => []⟩ 0) with
      | .ok ((g, h), r) => decide (r = []) && decide (g.trees.getValue h = .ok (.bool 0#64))
      | _ => false) = true := by decide +kernel
  rw [← h2] at hr
  split at hr
  · rename_i g' h' r heq
    rw [Bool.and_eq_true, decide_eq_true_eq, decide_eq_true_eq] at hr
    exact ⟨_, 0, b, g', h', 0x100000000#64, exWideTree_grown, h1, by rw [heq, hr.1], by decide +kernel, by decide, hr.2⟩
  · cases hr

end CCS.Props
