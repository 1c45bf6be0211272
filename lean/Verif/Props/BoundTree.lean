import Verif.Lemmas.TreeWalk
import Verif.Props.PyDatum
import Verif.Props.RbDatum
import Verif.Props.Roulette
import Verif.Props.Tree
import Verif.Spec.BoundTree

/-!
# Trees used from Python and Ruby

Property C152.
-/

namespace CCS.Props.BoundTree

open CCS CCS.Spec CCS.BoundInterval CCS.BoundTree CCS.BoundTree.Spec

/-! ## Arities are bounded -/

/-- What `ccs_create_tree` ensures. -/
def Narrow (f : Forest) : Prop := ∀ h n, f.node h = some n → n.arity ≤ 2 ^ 63 - 2 ∧ Label n.value

theorem narrow_put {f : Forest} (hf : Narrow f) {h : Nat} {n m : TreeNode} (hn : f.node h = some n) (hm : m.arity = n.arity)
    (hv : m.value = n.value) : Narrow (f.put h m) := by
  intro k x hx
  rw [Forest.node_put hn] at hx
  split at hx
  · cases hx; rw [hm, hv]; exact hf h n hn
  · exact hf k x hx

theorem narrow_updateLoop {ops : FloatOps} : ∀ {fuel : Nat} {f f' : Forest} {h i : Nat} {w : F64}, Narrow f →
    f.updateLoop ops fuel h i w = some (.ok f') → Narrow f'
  | 0, _, _, _, _, _, _, h => by cases h
  | fuel + 1, f, f', h, i, w, hf, hs => by
    simp only [Forest.updateLoop] at hs
    split at hs
    · cases hs
    · rename_i n hn
      have hf2 := narrow_put hf hn (m := Forest.reweigh ops n i w) rfl rfl
      split at hs
      · cases hs; exact hf2
      · exact narrow_updateLoop hf2 hs

theorem narrow_updateWeight {ops : FloatOps} {fuel : Nat} {f f' : Forest} {h i : Nat} {w : F64} (hf : Narrow f)
    (hs : f.updateWeight ops fuel h i w = some (.ok f')) : Narrow f' := by
  simp only [Forest.updateWeight] at hs
  split at hs
  · cases hs
  · split at hs
    · cases hs
    · split at hs
      · cases hs; exact hf
      · exact narrow_updateLoop hf hs

theorem narrow_link {f : Forest} (hf : Narrow f) (h i c : Nat) : Narrow (f.link h i c) := by
  simp only [Forest.link]
  split
  · exact hf
  · rename_i m hm
    have h1 := narrow_put hf hm (m := { m with parent := some h, index := i }) rfl rfl
    split
    · exact hf
    · rename_i n hn
      exact narrow_put h1 hn rfl rfl

theorem narrow_detach : ∀ {cs : List (Option Nat)} {f : Forest}, Narrow f → Narrow (f.detach cs)
  | [], _, h => h
  | none :: _, _, h => by simp only [Forest.detach]; exact narrow_detach h
  | some c :: _, f, h => by
    simp only [Forest.detach]
    split
    · exact narrow_detach h
    · rename_i m hm
      exact narrow_detach (narrow_put h hm rfl rfl)

theorem narrow_step {ops : FloatOps} {fuel : Nat} {f f' : Forest} {op : Forest.Op} (hf : Narrow f)
    (hs : f.step ops fuel op = some (.ok f')) : Narrow f' := by
  cases op with
  | create arity value =>
    simp only [Forest.step, Forest.create, refute] at hs
    split at hs
    · cases hs
    · rename_i h1
      split at hs
      · cases hs
      · rename_i h2
        split at hs
        · cases hs
        · rename_i h3
          cases hs
          intro k x hx
          rw [Forest.node_append] at hx
          split at hx
          · cases hx; exact ⟨by simp only [Forest.fresh]; omega, by simp only [Forest.fresh]; omega, h3⟩
          · exact hf k x hx
  | setChild h i c =>
    simp only [Forest.step, Forest.setChild] at hs
    split at hs
    · split at hs
      · cases hs
      · split at hs
        · cases hs
        · split at hs
          · cases hs
          · exact narrow_updateWeight (narrow_link hf _ _ _) hs
    · cases hs
  | setWeight h w =>
    simp only [Forest.step, Forest.setWeight] at hs
    split at hs
    · cases hs
    · split at hs
      · cases hs
      · exact narrow_updateWeight hf hs
  | setBias h b =>
    simp only [Forest.step, Forest.setBias] at hs
    split at hs
    · cases hs
    · rename_i n hn
      split at hs
      · cases hs
      · simp only [Forest.updateBias, hn] at hs
        split at hs
        · cases hs; exact hf
        · have h1 := narrow_put hf hn (m := { n with bias := b }) rfl rfl
          split at hs
          · cases hs; exact h1
          · exact narrow_updateWeight h1 hs
  | destroy h =>
    simp only [Forest.step, Forest.destroy] at hs
    split at hs
    · cases hs
    · cases hs
      intro k x hx
      rw [Forest.node_set_none] at hx
      split at hx
      · cases hx
      · exact narrow_detach hf k x hx

theorem narrow_grown {ops : FloatOps} {f : Forest} (hg : GrownForest ops f) : Narrow f := by
  induction hg with
  | empty => intro h n hn; simp [Forest.node] at hn
  | step _ _ hs ih => exact narrow_step ih hs

/-! ## Integers -/

theorem sizeGiven_nat (lang : Lang) {i : Nat} (hi : i < 2 ^ 64) : sizeGiven lang (i : Int) = .ok i := by
  have h1 : (BitVec.ofInt 64 (i : Int)).toNat = i := by simp; omega
  cases lang
  · simp only [sizeGiven, h1]
  · simp only [sizeGiven, h1]
    exact if_pos ⟨by omega, by omega⟩

theorem positionGiven_nat (lang : Lang) : ∀ {p : List Nat}, (∀ i ∈ p, i < 2 ^ 64) → positionGiven lang (ints p) = .ok p
  | [], _ => rfl
  | i :: p, h => by
    have h1 := positionGiven_nat lang (p := p) (fun j hj => h j (List.mem_cons_of_mem _ hj))
    simp only [ints] at h1
    simp only [ints, List.map_cons, positionGiven, sizeGiven_nat lang (h i List.mem_cons_self), Out.bind_ok, h1]

/-! ## Creation -/

theorem create_new {α : Type} {t : Tongue α} (ops : FloatOps) (f : Forest) {n : Nat} (hn : n ≤ 2 ^ 63 - 2) {v : α} {d : Datum}
    (hd : t.give v = .ok d) (hl : Label d.v) :
    ∃ f' h, BoundTree.create t ops f (n : Int) v = .ok (f', h) ∧ New f f' h n ∧ BoundTree.value t f' h = t.take { v := d.v } := by
  obtain ⟨h1, h2⟩ := hl
  have hnode : Forest.node (f ++ [some (Forest.fresh ops n d.v)]) f.length = some (Forest.fresh ops n d.v) := by
    rw [Forest.node_append, if_pos rfl]
  refine ⟨f ++ [some (Forest.fresh ops n d.v)], f.length, ?_, ⟨?_, ?_, ?_, ?_, ?_, ?_, ?_, ?_⟩, ?_⟩
  · simp only [BoundTree.create, hd, Out.bind_ok, sizeGiven_nat t.lang (show n < 2 ^ 64 by omega), Forest.create]
    rw [refute_false (by omega), Out.bind_ok, refute_false (by omega), Out.bind_ok, refute_false h2, Out.bind_ok]
  · simp [Forest.node]
  · simp only [BoundTree.arity, Forest.getArity, hnode]; rfl
  · simp only [BoundTree.weight, Forest.getWeight, hnode]
    simp [Forest.fresh, Forest.unitWeights, List.getD_eq_getElem?_getD]
  · simp only [BoundTree.bias, Forest.getBias, hnode]; rfl
  · simp only [BoundTree.children, Forest.getArity, hnode, Out.bind_ok, Forest.getChildren]
    by_cases h0 : n = 0
    · subst h0; rfl
    · rw [if_neg (show ¬ (Forest.fresh ops n d.v).arity = 0 from h0), if_neg (by omega), Out.bind_ok]
      simp [Forest.fresh]
  · simp only [BoundTree.parent, Forest.getParent, hnode, Out.bind_ok]; rfl
  · simp only [BoundTree.index, Forest.getParent, hnode, Out.bind_ok]; rfl
  · intro k hk
    rw [Forest.node_append, if_neg hk]
  · simp only [BoundTree.value, Forest.getValue, hnode, Out.bind_ok]; rfl

/-- From Python, `Tree(arity = n, value = v)` makes a new node: it has the value given, `n` places for children, all empty, weight and
bias 1 and no parent, and all other nodes are as they were.  Missing for the full property: the integers that the library cannot represent
(`C152_python_wraps`, `C132_int_wraps`). -/
theorem C152_python_created_partial (ops : FloatOps) (f : Forest) {n : Nat} (hn : n ≤ 2 ^ 63 - 2) {v : Py.Val} (hv : Labels v) :
    ∃ f' h, BoundTree.create python ops f (n : Int) v = .ok (f', h) ∧ New f f' h n ∧ BoundTree.value python f' h = .ok v := by
  obtain ⟨hr, hi⟩ := hv
  have hval := C132_value_partial hr
  cases v with
  | inactive => exact absurd rfl hi
  | other => exact (show False from hr).elim
  | none => exact create_new (t := python) ops f hn (v := .none) (d := { v := .none }) rfl ⟨by decide, nofun⟩
  | bool b =>
    obtain ⟨f', h, h1, h2, h3⟩ := create_new (t := python) ops f hn (v := .bool b) (d := { v := .bool _ }) rfl ⟨by simp [Value.tag], nofun⟩
    exact ⟨f', h, h1, h2, h3.trans hval⟩
  | int i =>
    obtain ⟨f', h, h1, h2, h3⟩ := create_new (t := python) ops f hn (v := .int i) (d := { v := .int _ }) rfl ⟨by simp [Value.tag], nofun⟩
    exact ⟨f', h, h1, h2, h3.trans hval⟩
  | float x =>
    obtain ⟨f', h, h1, h2, h3⟩ := create_new (t := python) ops f hn (v := .float x) (d := { v := .float _ }) rfl ⟨by simp [Value.tag], nofun⟩
    exact ⟨f', h, h1, h2, h3.trans hval⟩
  | str s =>
    obtain ⟨f', h, h1, h2, h3⟩ := create_new (t := python) ops f hn (v := .str s) (d := { v := .str (some _), transient := true }) rfl
      ⟨by simp [Value.tag], nofun⟩
    exact ⟨f', h, h1, h2, h3.trans hval⟩

/-- From Ruby too, for integers of 64 bits and ASCII strings: the value read is equal to the value given. -/
theorem C152_ruby_created_partial (ops : FloatOps) (f : Forest) {n : Nat} (hn : n ≤ 2 ^ 63 - 2) {v : Rb.Val} (hv : LabelsRb v) :
    ∃ f' h w, BoundTree.create ruby ops f (n : Int) v = .ok (f', h) ∧ New f f' h n ∧ BoundTree.value ruby f' h = .ok w ∧
      Rb.Spec.same w v = true := by
  obtain ⟨hr, hi, ho⟩ := hv
  obtain ⟨d, hd, hl, w, hw, hs⟩ : ∃ d, ruby.give v = .ok d ∧ Label d.v ∧ ∃ w, ruby.take { v := d.v } = .ok w ∧ Rb.Spec.same w v = true := by
    cases v with
    | inactive => exact absurd rfl hi
    | obj h => exact absurd rfl (ho h)
    | ident h => exact (show False from hr).elim
    | other => exact (show False from hr).elim
    | nil => exact ⟨{ v := .none }, rfl, ⟨by decide, nofun⟩, .nil, rfl, by decide⟩
    | bool b => exact ⟨{ v := .bool (if b then 1#64 else 0#64) }, rfl, ⟨by simp [Value.tag], nofun⟩,
        .bool ((if b then 1#64 else 0#64) != 0#64), rfl, by cases b <;> decide +kernel⟩
    | int i =>
      refine ⟨{ v := .int (BitVec.ofInt 64 i) }, ?_, ⟨by simp [Value.tag], nofun⟩, .int i, ?_, by simp [Rb.Spec.same]⟩
      · show (Rb.int64 i >>= fun n => Out.ok ({ v := .int n } : Datum)) = _
        rw [Rb.int64, if_pos (show -2 ^ 63 ≤ i ∧ i < 2 ^ 63 from hr), Out.bind_ok]
      · show Out.ok (Rb.Val.int (BitVec.ofInt 64 i).toInt) = _
        rw [BitVec.toInt_ofInt, Int.bmod_eq_of_le (by have := hr.1; omega) (by have := hr.2; omega)]
    | float x => exact ⟨_, rfl, ⟨by simp [Value.tag], nofun⟩, _, rfl, by simp [Rb.Spec.same]⟩
    | str s b =>
      refine ⟨_, rfl, ⟨by simp [Value.tag, Rb.withBits], nofun⟩, _, rfl, ?_⟩
      have : s.takeWhile (fun c => decide (c ≠ 0#8)) = s := by
        clear hi ho
        have h := hr.1
        clear hr
        induction s with
        | nil => rfl
        | cons c s ih =>
          rw [List.takeWhile_cons_of_pos (by simp; intro h'; exact h (h' ▸ List.mem_cons_self)), ih (fun h' => h (List.mem_cons_of_mem _ h'))]
      rw [this]
      exact decide_eq_true (show s = s ∧ _ from ⟨rfl, .inr hr.2⟩)
  obtain ⟨f', h, h1, h2, h3⟩ := create_new (t := ruby) ops f hn hd hl
  exact ⟨f', h, w, h1, h2, h3.trans hw, hs⟩

/-! ## Children -/

theorem sizeGiven_negative (lang : Lang) {i : Int} (h1 : -2 ^ 63 ≤ i) (h2 : i < 0) : ∃ k, sizeGiven lang i = .ok k ∧ 2 ^ 63 ≤ k := by
  have h : (BitVec.ofInt 64 i).toNat = (i + 2 ^ 64).toNat := by
    rw [BitVec.toNat_ofInt]; omega
  refine ⟨(BitVec.ofInt 64 i).toNat, ?_, by rw [h]; omega⟩
  cases lang
  · rfl
  · exact if_pos ⟨h1, by omega⟩

/-- From both languages, an integer of 64 bits that is the number of a place gets the child there (`None` for none), any other is refused: a
negative one does not count from the end.  Missing for the full property: larger integers from Python (`C152_python_wraps`). -/
theorem C152_get_child_partial {ops : FloatOps} {f : Forest} (hg : GrownForest ops f) (lang : Lang) {h : Nat} {n : Nat}
    (hn : BoundTree.arity f h = .ok n) {i : Int} (h1 : -2 ^ 63 ≤ i) (h2 : i < 2 ^ 63) :
    (BoundTree.getChild lang f h i = .err .outOfBounds ↔ ¬ (0 ≤ i ∧ i < n)) ∧
    (0 ≤ i ∧ i < n → ∃ c, BoundTree.getChild lang f h i = .ok c) := by
  cases hm : f.node h with
  | none => simp [BoundTree.arity, Forest.getArity, hm] at hn
  | some m =>
    have hn' : m.arity = n := by simpa [BoundTree.arity, Forest.getArity, hm] using hn
    subst hn'
    have hb := (narrow_grown hg h m hm).1
    by_cases h0 : i < 0
    · obtain ⟨k, hk, hk2⟩ := sizeGiven_negative lang h1 h0
      have : BoundTree.getChild lang f h i = .err .outOfBounds := by
        simp only [BoundTree.getChild, hk, Out.bind_ok, Forest.getChild, hm]
        rw [if_pos (by omega)]
      exact ⟨⟨fun _ => by omega, fun _ => this⟩, fun h => by omega⟩
    · obtain ⟨k, rfl⟩ : ∃ k : Nat, i = k := ⟨i.toNat, by omega⟩
      by_cases hk : m.arity ≤ k
      · have : BoundTree.getChild lang f h (k : Int) = .err .outOfBounds := by
          simp only [BoundTree.getChild, sizeGiven_nat lang (show k < 2 ^ 64 by omega), Out.bind_ok, Forest.getChild, hm]
          rw [if_pos hk]
        exact ⟨⟨fun _ => by omega, fun _ => this⟩, fun h => by omega⟩
      · have : BoundTree.getChild lang f h (k : Int) = .ok (m.children.getD k none) := by
          simp only [BoundTree.getChild, sizeGiven_nat lang (show k < 2 ^ 64 by omega), Out.bind_ok, Forest.getChild, hm]
          rw [if_neg hk]
        refine ⟨⟨fun h => ?_, fun h => by omega⟩, fun _ => ⟨_, this⟩⟩
        rw [this] at h; cases h

/-- From Ruby, an integer that is not the number of a place is refused, whatever its size. -/
theorem C152_ruby_get_child {ops : FloatOps} {f : Forest} (hg : GrownForest ops f) {h : Nat} {n : Nat}
    (hn : BoundTree.arity f h = .ok n) {i : Int} (hi : ¬ (0 ≤ i ∧ i < n)) : ∃ e, BoundTree.getChild .ruby f h i = .err e := by
  by_cases h1 : -2 ^ 63 ≤ i ∧ i < 2 ^ 63
  · exact ⟨_, ((C152_get_child_partial hg .ruby hn h1.1 h1.2).1).2 hi⟩
  · by_cases h2 : -2 ^ 63 ≤ i ∧ i < 2 ^ 64
    · obtain ⟨k, rfl⟩ : ∃ k : Nat, i = k := ⟨i.toNat, by omega⟩
      cases hm : f.node h with
      | none => simp [BoundTree.arity, Forest.getArity, hm] at hn
      | some m =>
        have hn' : m.arity = n := by simpa [BoundTree.arity, Forest.getArity, hm] using hn
        refine ⟨.outOfBounds, ?_⟩
        simp only [BoundTree.getChild, sizeGiven_nat .ruby (show k < 2 ^ 64 by omega), Out.bind_ok, Forest.getChild, hm]
        rw [if_pos (by omega)]
    · refine ⟨.external, ?_⟩
      have : sizeGiven .ruby i = .err .external := if_neg h2
      simp only [BoundTree.getChild, this]; rfl

/-- The property fails from Python: an integer counts modulo 2^64, wherever a number of places or of a child is expected, so that a child is
found, attached, or a node made, at a place other than the one asked for. -/
theorem C152_python_wraps (i k : Int) : (∀ f h, BoundTree.getChild .python f h (i + k * 2 ^ 64) = BoundTree.getChild .python f h i) ∧
    (∀ ops fuel f h c, BoundTree.setChild .python ops fuel f h (i + k * 2 ^ 64) c = BoundTree.setChild .python ops fuel f h i c) ∧
    (∀ ops f v, BoundTree.create python ops f (i + k * 2 ^ 64) v = BoundTree.create python ops f i v) := by
  have h : sizeGiven .python (i + k * 2 ^ 64) = sizeGiven .python i := by
    simp only [sizeGiven]
    congr 2
    apply BitVec.eq_of_toInt_eq
    rw [BitVec.toInt_ofInt, BitVec.toInt_ofInt]
    exact Int.add_mul_bmod_self_right ..
  refine ⟨fun f h' => ?_, fun ops fuel f h' c => ?_, fun ops f v => ?_⟩
  · simp only [BoundTree.getChild, h]
  · simp only [BoundTree.setChild, h]
  · have : sizeGiven python.lang (i + k * 2 ^ 64) = sizeGiven python.lang i := h
    simp only [BoundTree.create, this]

/-- The list of children has one entry per place, the child that `get_child` finds there; and a child knows its parent and its place. -/
theorem C152_children {ops : FloatOps} {f : Forest} (hg : GrownForest ops f) (lang : Lang) {h n : Nat}
    (hn : BoundTree.arity f h = .ok n) :
    ∃ cs, BoundTree.children f h = .ok cs ∧ cs.length = n ∧
      (∀ i c, cs[i]? = some c ↔ i < n ∧ BoundTree.getChild lang f h (i : Int) = .ok c) ∧
      (∀ i c, cs[i]? = some (some c) ↔ BoundTree.parent f c = .ok (some h) ∧ BoundTree.index f c = .ok (some i)) := by
  have hh := Forest.grown_healthy hg
  cases hm : f.node h with
  | none => simp [BoundTree.arity, Forest.getArity, hm] at hn
  | some m =>
    have hn' : m.arity = n := by simpa [BoundTree.arity, Forest.getArity, hm] using hn
    subst hn'
    have hb := (narrow_grown hg h m hm).1
    have hlen := (hh.ok hm).children
    refine ⟨m.children, ?_, hlen, fun i c => ⟨fun hc => ?_, fun ⟨hi, hc⟩ => ?_⟩, fun i c => ⟨fun hc => ?_, fun ⟨hp, hx⟩ => ?_⟩⟩
    · simp only [BoundTree.children, Forest.getArity, hm, Out.bind_ok, Forest.getChildren]
      split
      · rename_i h0
        rw [List.length_eq_zero_iff.1 (hlen.trans h0)]
      · rw [if_neg (by omega), Out.bind_ok]
        simp
    · have hi : i < m.arity := by rw [← hlen]; exact (List.getElem?_eq_some_iff.1 hc).1
      refine ⟨hi, ?_⟩
      simp only [BoundTree.getChild, sizeGiven_nat lang (show i < 2 ^ 64 by omega), Out.bind_ok, Forest.getChild, hm]
      rw [if_neg (by omega), List.getD_eq_getElem?_getD, hc]
      rfl
    · simp only [BoundTree.getChild, sizeGiven_nat lang (show i < 2 ^ 64 by omega), Out.bind_ok, Forest.getChild, hm] at hc
      rw [if_neg (by omega), List.getD_eq_getElem?_getD] at hc
      have hi' : i < m.children.length := by omega
      rw [List.getElem?_eq_getElem hi'] at hc ⊢
      exact congrArg some (Out.ok.inj hc)
    · obtain ⟨x, hx, h1, h2⟩ := hh.linked.down hm hc
      constructor
      · simp [BoundTree.parent, Forest.getParent, hx, h1]
      · simp [BoundTree.index, Forest.getParent, hx, h1, h2]
    · cases hc : f.node c with
      | none => simp only [BoundTree.parent, Forest.getParent, hc] at hp; cases hp
      | some x =>
        simp only [BoundTree.parent, Forest.getParent, hc, Out.bind_ok] at hp
        simp only [BoundTree.index, Forest.getParent, hc, Out.bind_ok] at hx
        cases hxp : x.parent with
        | none => rw [hxp] at hp; cases hp
        | some q =>
          rw [hxp] at hp hx
          cases hp; cases hx
          obtain ⟨y, hy, h1⟩ := hh.linked.up hc hxp
          rw [hm] at hy; cases hy
          exact h1

/-! ## Positions -/

theorem leads_along {ops : FloatOps} {f : Forest} (hg : GrownForest ops f) (lang : Lang) {r h : Nat} {p : List Nat} (hl : Leads f r p h) :
    (∀ i ∈ p, i < 2 ^ 64) ∧ ∃ hs, Along lang f r p hs ∧ hs.getLast? = some h ∧ hs.length = p.length + 1 := by
  induction hl with
  | here => exact ⟨by simp, _, .here, rfl, rfl⟩
  | @down r i c p h hc _ ih =>
    obtain ⟨h1, hs, h2, h3, h4⟩ := ih
    obtain ⟨n, hn, hi, -⟩ := Forest.getChild_ok hc
    have hb := (narrow_grown hg r n hn).1
    have hi64 : i < 2 ^ 64 := by omega
    refine ⟨?_, r :: hs, .down ?_ h2, ?_, by simp [h4]⟩
    · intro j hj
      rcases List.mem_cons.1 hj with rfl | hj
      · exact hi64
      · exact h1 j hj
    · simp only [BoundTree.getChild, sizeGiven_nat lang hi64, Out.bind_ok]; exact hc
    · cases hs with
      | nil => simp at h4
      | cons x xs => simpa using h3

theorem along_values {ops : FloatOps} {f : Forest} (hg : GrownForest ops f) {α : Type} {t : Tongue α} (ht : Speaks t) {lang : Lang}
    {r : Nat} {p hs : List Nat} (ha : Along lang f r p hs) (hp : ∀ i ∈ p, i < 2 ^ 64) {n : TreeNode} (hn : f.node r = some n) :
    ∃ ws xs, f.walkValues r p = .ok ws ∧ takeAll t (n.value :: ws) = .ok xs ∧ Each (BoundTree.value t f) hs xs := by
  induction ha generalizing n with
  | @here h =>
    obtain ⟨x, hx⟩ := ht n.value (narrow_grown hg h n hn).2
    refine ⟨[], [x], rfl, ?_, ?_, trivial⟩
    · simp only [takeAll, hx, Out.bind_ok]
    · simp only [BoundTree.value, Forest.getValue, hn, Out.bind_ok]; exact hx
  | @down r i c p hs hc _ ih =>
    obtain ⟨x, hx⟩ := ht n.value (narrow_grown hg r n hn).2
    simp only [BoundTree.getChild, sizeGiven_nat lang (hp i List.mem_cons_self), Out.bind_ok] at hc
    obtain ⟨m, hm⟩ := Forest.child_live (Forest.grown_healthy hg) hc
    obtain ⟨ws, xs, h1, h2, h3⟩ := ih (fun j hj => hp j (List.mem_cons_of_mem _ hj)) hm
    refine ⟨m.value :: ws, x :: xs, ?_, ?_, ?_, h3⟩
    · simp only [Forest.walkValues, Forest.stepDown, hc, Out.bind_ok, Forest.getValue, hm, h1]
    · rw [takeAll, hx, Out.bind_ok, h2, Out.bind_ok]
    · simp only [BoundTree.value, Forest.getValue, hn, Out.bind_ok]; exact hx

/-- Every node has a root and nodes in between, of which the binding tells: `depth` is the number of steps, `position` the numbers of the
children gone through, `values` the value of each node met; and from the root, `get_node_at_position` finds the node at its position,
`get_values_at_position` finds its values, and the position is valid. -/
theorem C152_position {ops : FloatOps} {f : Forest} (hg : GrownForest ops f) {α : Type} {t : Tongue α} (ht : Speaks t) {h n : Nat}
    (hn : BoundTree.arity f h = .ok n) :
    ∃ r p hs xs d, BoundTree.parent f r = .ok none ∧ Along t.lang f r p hs ∧ hs.getLast? = some h ∧ Each (BoundTree.value t f) hs xs ∧
      (∀ fuel, d < fuel → BoundTree.depth fuel f h = some (.ok p.length) ∧ BoundTree.position fuel f h = some (.ok p) ∧
        BoundTree.values t fuel f h = some (.ok xs)) ∧
      BoundTree.nodeAt t.lang f r (ints p) = .ok h ∧ BoundTree.valuesAt t f r (ints p) = .ok xs ∧
      BoundTree.positionIsValid t.lang f r (ints p) = .ok true := by
  cases hm : f.node h with
  | none => simp [BoundTree.arity, Forest.getArity, hm] at hn
  | some m =>
    obtain ⟨r, p, d, vs, h1, -, h2, h3, h4, h5, h6, h7⟩ := C69_leads_back hg hm
    obtain ⟨hp, hs, h8, h9, h10⟩ := leads_along hg t.lang h2
    have hr : ∃ nr, f.node r = some nr := by
      cases hr : f.node r with
      | none => simp only [Forest.getParent, hr] at h1; cases h1
      | some nr => exact ⟨nr, rfl⟩
    obtain ⟨nr, hr⟩ := hr
    obtain ⟨ws, xs, h11, h12, h13⟩ := along_values hg ht h8 hp hr
    have hvals : f.valuesAt r p (p.length + 1) = .ok (nr.value :: ws) := by
      simp only [Forest.valuesAt, hr]
      rw [refute_false (by omega), Out.bind_ok, h11, Out.bind_ok]
      simp
    have hvs : vs = nr.value :: ws := by
      have := (h7 (d + 1) (p.length + 1) (by omega) (by omega)).2
      rw [hvals] at this
      simpa using (Out.ok.inj this).symm
    refine ⟨r, p, hs, xs, d, ?_, h8, h9, h13, fun fuel hf => ?_, ?_, ?_, ?_⟩
    · simp only [BoundTree.parent, h1, Out.bind_ok]; rfl
    · have hd : BoundTree.depth fuel f h = some (.ok p.length) := by
        simp only [BoundTree.depth, h5 fuel hf]; rfl
      refine ⟨hd, ?_, ?_⟩
      · simp only [BoundTree.position, hd, h4 fuel p.length hf]
        simp
      · simp only [BoundTree.values, hd, (h7 fuel (p.length + 1) hf (by omega)).1]
        simp [hvs, h12]
    · simp only [BoundTree.nodeAt, positionGiven_nat t.lang hp, Out.bind_ok, h3]
    · have hlen : (ints p).length = p.length := by simp [ints]
      simp only [BoundTree.valuesAt, positionGiven_nat t.lang hp, Out.bind_ok, hlen, hvals, h12]
    · simp only [BoundTree.positionIsValid, positionGiven_nat t.lang hp, Out.bind_ok]
      exact (C70_node_valid hg hr h2).1

/-- Both languages take every value of a node. -/
theorem C152_speaks : Speaks python ∧ Speaks ruby := by
  constructor
  · rintro v ⟨h1, h2⟩
    cases v with
    | str s => cases s with
      | none => exact absurd rfl h2
      | some s => exact ⟨_, rfl⟩
    | inactive => simp [Value.tag] at h1
    | obj h => simp [Value.tag] at h1
    | _ => exact ⟨_, rfl⟩
  · rintro v ⟨h1, h2⟩
    cases v with
    | str s => cases s with
      | none => exact absurd rfl h2
      | some s => exact ⟨_, rfl⟩
    | inactive => simp [Value.tag] at h1
    | obj h => simp [Value.tag] at h1
    | _ => exact ⟨_, rfl⟩

/-! ## Attaching -/

theorem getChild_sameSkel {f g : Forest} (hs : Forest.SameSkel f g) (h i : Nat) : g.getChild h i = f.getChild h i := by
  simp only [Forest.getChild]
  cases hf : f.node h with
  | none =>
    have := hs.2 h
    rw [hf] at this
    cases hg : g.node h with
    | none => rfl
    | some m => rw [hg] at this; cases this
  | some n =>
    obtain ⟨m, hm, he⟩ := hs.node hf
    have := Forest.skel_eq he
    simp only [hm, this.1, this.2.1]

theorem getParent_sameSkel {f g : Forest} (hs : Forest.SameSkel f g) (h : Nat) : g.getParent h = f.getParent h := by
  simp only [Forest.getParent]
  cases hf : f.node h with
  | none =>
    have := hs.2 h
    rw [hf] at this
    cases hg : g.node h with
    | none => rfl
    | some m => rw [hg] at this; cases this
  | some n =>
    obtain ⟨m, hm, he⟩ := hs.node hf
    have := Forest.skel_eq he
    simp only [hm, this.2.2.2.2.1, this.2.2.2.2.2]

/-- `set_child` on an empty place with a node that has no parent, and that the place is not below, puts the node there: `get_child` finds it,
the node knows its parent and its place, and no other child or parent changes. -/
theorem C152_set_child {ops : FloatOps} {f : Forest} (hg : GrownForest ops f) (lang : Lang) {h c i n : Nat} (hn : BoundTree.arity f c = .ok n)
    (he : BoundTree.getChild lang f h (i : Int) = .ok none) (hi : i < 2 ^ 64) (hp : BoundTree.parent f c = .ok none) (ha : ¬ Above f c h) :
    ∃ d f', (∀ fuel, d < fuel → BoundTree.setChild lang ops fuel f h (i : Int) c = some (.ok f')) ∧
      BoundTree.getChild lang f' h (i : Int) = .ok (some c) ∧ BoundTree.parent f' c = .ok (some h) ∧ BoundTree.index f' c = .ok (some i) ∧
      (∀ k j : Nat, j < 2 ^ 64 → (k, j) ≠ (h, i) → BoundTree.getChild lang f' k (j : Int) = BoundTree.getChild lang f k (j : Int)) ∧
      (∀ k, k ≠ c → BoundTree.parent f' k = BoundTree.parent f k ∧ BoundTree.index f' k = BoundTree.index f k) := by
  have hh := Forest.grown_healthy hg
  have hgc : f.getChild h i = .ok none := by
    simp only [BoundTree.getChild, sizeGiven_nat lang hi, Out.bind_ok] at he; exact he
  obtain ⟨nh, hnh, hlt, hd⟩ := Forest.getChild_ok hgc
  have hempty : nh.children[i]? = some none := Forest.getD_eq_none (by rw [(hh.ok hnh).children]; exact hlt) hd
  cases hc : f.node c with
  | none => simp [BoundTree.arity, Forest.getArity, hc] at hn
  | some m =>
    have hmp : m.parent = none := by
      simp only [BoundTree.parent, Forest.getParent, hc, Out.bind_ok] at hp
      cases hmp : m.parent with
      | none => rfl
      | some q => rw [hmp] at hp; cases hp
    obtain ⟨d, g, h1, h2, h3⟩ := Forest.setChild_ok hh hnh hc hempty hmp ha
    have hne : h ≠ c := by rintro rfl; exact ha .self
    have hnode := Forest.node_link (i := i) hnh hc hne
    have hilen : i < nh.children.length := (List.getElem?_eq_some_iff.1 hempty).1
    refine ⟨d, g, fun fuel hf => ?_, ?_, ?_, ?_, fun k j hj hkj => ?_, fun k hk => ?_⟩
    · simp only [BoundTree.setChild, sizeGiven_nat lang hi]; exact h1 fuel hf
    · simp only [BoundTree.getChild, sizeGiven_nat lang hi, Out.bind_ok, getChild_sameSkel h3.skel]
      simp only [Forest.getChild, hnode h, if_pos]
      rw [if_neg (by simpa using hlt)]
      simp [List.getD_eq_getElem?_getD, hilen]
    · rw [BoundTree.parent, getParent_sameSkel h3.skel]
      simp only [Forest.getParent, hnode c, if_neg (Ne.symm hne), if_pos, Out.bind_ok]; rfl
    · rw [BoundTree.index, getParent_sameSkel h3.skel]
      simp only [Forest.getParent, hnode c, if_neg (Ne.symm hne), if_pos, Out.bind_ok]; rfl
    · simp only [BoundTree.getChild, sizeGiven_nat lang hj, Out.bind_ok, getChild_sameSkel h3.skel]
      simp only [Forest.getChild, hnode k]
      by_cases hkh : k = h
      · subst hkh
        have hji : i ≠ j := fun h => hkj (by rw [h])
        simp only [if_pos, hnh]
        split
        · rfl
        · simp [List.getD_eq_getElem?_getD, List.getElem?_set_ne hji]
      · rw [if_neg hkh]
        by_cases hkc : k = c
        · subst hkc
          simp only [if_pos, hc]
        · rw [if_neg hkc]
    · simp only [BoundTree.parent, BoundTree.index, getParent_sameSkel h3.skel, Forest.getParent_link hnh hc hk, and_self]

/-! ## Samples -/

theorem drawn_index {ops : FloatOps} {f : Forest} (hg : GrownForest ops f) {h : Nat} {n : TreeNode} (hn : f.node h = some n)
    (hsize : n.arity < 2 ^ 53) {rnd : F64} (hr : UnitDraw rnd) :
    ∃ i : Nat, i ≤ n.arity ∧ (∀ fuel, n.arity + 1 ≤ fuel → search Ieee.guess fuel (n.arity + 1) n.areas rnd = some (.ok (i : Int))) ∧
      chosen n.arity (i : Int) = if i = n.arity then none else some i := by
  have ho := (Forest.grown_healthy hg).ok hn
  obtain ⟨i, h1, h2⟩ := C74_terminates (by omega) (show n.areas.length = n.arity + 1 + 1 from ho.len) ho.first ho.last hr
    (C74_guess (by omega) (by omega) hr)
  refine ⟨i, by omega, h1, ?_⟩
  have : (BitVec.ofInt 64 (i : Int)).toNat = i := by simp; omega
  simp only [chosen, this]

/-- Sampling a node of positive total weight gives `None`, for the node itself, or the number of one of its places, and sampling it several times
gives as many of these, the same as sampling once with each of the draws. -/
theorem C152_samples {ops : FloatOps} {f : Forest} (hg : GrownForest ops f) (lang : Lang) {h : Nat} {n : TreeNode} (hn : f.node h = some n)
    (hsize : n.arity < 2 ^ 53) (hpos : F64.feq n.sum F64.zero = false) : ∀ {rnds : List F64}, (∀ x ∈ rnds, UnitDraw x) →
    ∃ is, (∀ fuel, n.arity + 1 ≤ fuel → BoundTree.samples lang Ieee.guess fuel f h rnds = some (.ok is)) ∧ is.length = rnds.length ∧
      (∀ c ∈ is, c = none ∨ ∃ i, c = some i ∧ i < n.arity) ∧
      (∀ (k : Nat) x, rnds[k]? = some x → ∀ fuel, n.arity + 1 ≤ fuel → ∃ c, is[k]? = some c ∧
        BoundTree.sample Ieee.guess fuel f h x = some (.ok c)) := by
  intro rnds hr
  have key : ∃ is, (∀ fuel, n.arity + 1 ≤ fuel → drawn Ieee.guess fuel n rnds = some (.ok is)) ∧ is.length = rnds.length ∧
      (∀ c ∈ is, c = none ∨ ∃ i, c = some i ∧ i < n.arity) ∧
      (∀ (k : Nat) x, rnds[k]? = some x → ∀ fuel, n.arity + 1 ≤ fuel → ∃ c, is[k]? = some c ∧
        BoundTree.sample Ieee.guess fuel f h x = some (.ok c)) := by
    induction rnds with
    | nil => exact ⟨[], fun _ _ => rfl, rfl, by simp, fun k x hx => by simp at hx⟩
    | cons x xs ih =>
      obtain ⟨is, h1, h2, h3, h4⟩ := ih (fun y hy => hr y (List.mem_cons_of_mem _ hy))
      obtain ⟨i, h5, h6, h7⟩ := drawn_index hg hn hsize (hr x List.mem_cons_self)
      refine ⟨chosen n.arity (i : Int) :: is, fun fuel hf => ?_, by simp [h2], fun c hc => ?_, fun k y hy fuel hf => ?_⟩
      · simp only [drawn, h6 fuel hf, h1 fuel hf]; rfl
      · rcases List.mem_cons.1 hc with rfl | hc
        · rw [h7]
          split
          · exact .inl rfl
          · exact .inr ⟨i, rfl, by omega⟩
        · exact h3 c hc
      · cases k with
        | zero =>
          simp only [List.getElem?_cons_zero, Option.some.injEq] at hy
          subst hy
          refine ⟨_, rfl, ?_⟩
          simp only [BoundTree.sample, hn, Forest.sampleIndex, hpos]
          rw [if_neg (by simp), h6 fuel hf]
          rfl
        | succ k => exact h4 k y (by simpa using hy) fuel hf
  obtain ⟨is, h1, h2, h3, h4⟩ := key
  refine ⟨is, fun fuel hf => ?_, h2, h3, h4⟩
  simp only [BoundTree.samples]
  split
  · rename_i h0
    have : is = [] := List.length_eq_zero_iff.1 (by rw [h2, h0.2]; rfl)
    rw [this]
  · simp only [hn, hpos]
    rw [if_neg (by simp)]
    exact h1 fuel hf

/-! ## Non-vacuity -/

/-- The tree of `Props/Tree`, from both languages: positions, values, children, samples. -/
example : BoundTree.position 9 exTree 2 = some (.ok [0, 0]) ∧ BoundTree.values python 9 exTree 2 = some (.ok [.int 1, .int 2, .int 3]) ∧
    BoundTree.valuesAt ruby exTree 0 [0, 0] = .ok [.int 1, .int 2, .int 3] ∧ BoundTree.children exTree 0 = .ok [some 1, none] ∧
    BoundTree.getChild .python exTree 0 (-1) = .err .outOfBounds ∧ BoundTree.getChild .python exTree 0 (2 ^ 64) = .ok (some 1) ∧
    BoundTree.getChild .ruby exTree 0 (2 ^ 64) = .err .external ∧ BoundTree.index exTree 2 = .ok (some 0) ∧
    BoundTree.parent exTree 0 = .ok none := by decide +kernel

example : GrownForest ieee exTree ∧ BoundTree.arity exTree 2 = .ok 0 ∧ BoundTree.arity exTree 0 = .ok 2 := ⟨exTree_grown, by decide +kernel⟩

/-- A half draw stops at the first place of the root, which weighs 2 out of 4; 7/8 stays at the root. -/
example : BoundTree.samples .python Ieee.guess 9 exTree 0 [F64.zero, 0x3fec000000000000#64] = some (.ok [some 0, none]) := by decide +kernel

/-- A fresh node to attach at the empty place of the root. -/
def exMore : Forest := exGrow (.create 0 (.int 9#64) :: exTreeOps)

example : GrownForest ieee exMore ∧ BoundTree.arity exMore 3 = .ok 0 ∧ BoundTree.getChild .ruby exMore 0 1 = .ok none ∧
    BoundTree.parent exMore 3 = .ok none ∧ ¬ Above exMore 3 0 :=
  ⟨exGrow_step exTree_grown trivial, by decide +kernel, by decide +kernel, by decide +kernel,
    not_above 9 (by decide +kernel) (by decide +kernel)⟩

example : Labels (.str [104#8, 105#8]) ∧ LabelsRb (.int 7) :=
  ⟨⟨by simp [Py.Spec.Representable], nofun⟩, ⟨show -2 ^ 63 ≤ (7 : Int) ∧ (7 : Int) < 2 ^ 63 by decide, nofun, nofun⟩⟩

end CCS.Props.BoundTree
