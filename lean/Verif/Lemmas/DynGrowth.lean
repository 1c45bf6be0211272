import Verif.Lemmas.DynTree
import Verif.Lemmas.TreeGrowth

/-!
# What later questions leave as it was in a dynamic tree space

Each question may be asked with another callback.
-/

namespace CCS

open Spec

namespace Forest

/-- Every node is still there, with its places, its value and its children. -/
def Keeps (f g : Forest) : Prop := ∀ k n, f.node k = some n → ∃ n', g.node k = some n' ∧ Stays n n'

theorem Keeps.refl (f : Forest) : Keeps f f := fun _ n hn => ⟨n, hn, .refl n⟩

theorem Keeps.trans {f g h : Forest} (h1 : Keeps f g) (h2 : Keeps g h) : Keeps f h := by
  intro k n hn
  obtain ⟨n', h3, h4⟩ := h1 k n hn
  obtain ⟨n'', h5, h6⟩ := h2 k n' h3
  exact ⟨n'', h5, h4.trans h6⟩

theorem Keeps.getChild {f g : Forest} (hk : Keeps f g) {h i c : Nat} (hc : f.getChild h i = .ok (some c)) : g.getChild h i = .ok (some c) := by
  obtain ⟨n, hn, hi, ho⟩ := getChild_ok hc
  obtain ⟨n', h1, h2⟩ := hk h n hn
  simp only [Forest.getChild, h1, h2.arity]
  rw [if_neg (by omega), h2.children i c ho]

theorem Keeps.leads {f g : Forest} (hk : Keeps f g) {h k : Nat} {p : List Nat} (hl : Leads f h p k) : Leads g h p k := by
  induction hl with
  | here => exact .here
  | down hc _ ih => exact .down (hk.getChild hc) ih

theorem Keeps.getValue {f g : Forest} (hk : Keeps f g) {h : Nat} {v : Value} (hv : f.getValue h = .ok v) : g.getValue h = .ok v := by
  unfold Forest.getValue at hv ⊢
  cases hn : f.node h with
  | none => rw [hn] at hv; cases hv
  | some n =>
    rw [hn] at hv
    obtain ⟨n', h1, h2⟩ := hk h n hn
    rw [h1]
    exact (congrArg Out.ok h2.value).trans hv

/-- The values of the nodes met below `h` on the way along `p`. -/
inductive Met (f : Forest) : Nat → List Nat → List Value → Prop
  | here {h : Nat} : Met f h [] []
  | down {h i c : Nat} {p : List Nat} {v : Value} {vs : List Value} : f.getChild h i = .ok (some c) → f.getValue c = .ok v → Met f c p vs →
    Met f h (i :: p) (v :: vs)

/-- Whether the position `p` below `h` is valid: the nodes on the way are there, until an index is past the places. -/
inductive Judged (f : Forest) : Nat → List Nat → Bool → Prop
  | here {h : Nat} : Judged f h [] true
  | past {h i : Nat} {n : TreeNode} {p : List Nat} : f.node h = some n → n.arity ≤ i → Judged f h (i :: p) false
  | down {h i c : Nat} {p : List Nat} {b : Bool} : f.getChild h i = .ok (some c) → Judged f c p b → Judged f h (i :: p) b

theorem Keeps.judged {f g : Forest} (hk : Keeps f g) {h : Nat} {p : List Nat} {b : Bool} (hm : Judged f h p b) : Judged g h p b := by
  induction hm with
  | here => exact .here
  | past hn hi =>
    obtain ⟨n', h1, h2⟩ := hk _ _ hn
    exact .past h1 (by rw [h2.arity]; exact hi)
  | down hc _ ih => exact .down (hk.getChild hc) ih

theorem Keeps.met {f g : Forest} (hk : Keeps f g) {h : Nat} {p : List Nat} {vs : List Value} (hm : Met f h p vs) : Met g h p vs := by
  induction hm with
  | here => exact .here
  | down hc hv _ ih => exact .down (hk.getChild hc) (hk.getValue hv) ih

end Forest

namespace DynTree

open Forest

theorem getChild_mono {ops : FloatOps} {cb : List Nat → Out Sprout} {t : DynTree} {fuel : Nat} {pos : List Nat} {h i : Nat}
    {x : DynTree × Out Nat} (hx : t.getChild ops cb fuel pos h i = some x) (more : Nat) : t.getChild ops cb (fuel + more) pos h i = some x := by
  unfold getChild at hx ⊢
  split at hx <;> try exact hx
  dsimp only at hx ⊢
  split at hx <;> try exact hx
  split at hx <;> try exact hx
  rename_i f c _
  cases hs : f.setChild ops fuel h i c with
  | none => rw [hs] at hx; cases hx
  | some r =>
    have := step_mono (show f.step ops fuel (.setChild h i c) = some r from hs) (Nat.le_add_right fuel more)
    have : f.setChild ops (fuel + more) h i c = some r := this
    rw [this]
    rw [hs] at hx
    exact hx

/-- What asking for a child leaves. -/
theorem getChild_grows {ops : FloatOps} {cb : List Nat → Out Sprout} {t t' : DynTree} (hh : Healthy ops t.forest) {h : Nat}
    (hn : ∃ n, t.forest.node h = some n) {fuel : Nat} {pos : List Nat} {i : Nat} {r : Out Nat}
    (hx : t.getChild ops cb fuel pos h i = some (t', r)) :
    Healthy ops t'.forest ∧ t'.root = t.root ∧ Keeps t.forest t'.forest ∧ ∀ c, r = .ok c → t'.forest.getChild h i = .ok (some c) := by
  obtain ⟨n, hn⟩ := hn
  rcases getChild_cases (cb := cb) hh hn pos i with ⟨-, h1⟩ | ⟨c, -, h1, h2⟩ | ⟨-, h1, h2, r', h3, h4⟩ |
    ⟨s, f', c, hia, h1, h2, h3, h4, h5, b, h6⟩
  · rw [h1 fuel] at hx
    cases hx
    exact ⟨hh, rfl, .refl _, (fun _ h => nomatch h)⟩
  · rw [h2 fuel] at hx
    cases hx
    refine ⟨hh, rfl, .refl _, fun c' hc' => ?_⟩
    cases hc'
    exact h1
  · rw [h4 fuel] at hx
    cases hx
    exact ⟨hh, rfl, .refl _, fun c hc => absurd hc (h3 c)⟩
  · have hmono := getChild_mono hx b
    rw [h6 (fuel + b) (by omega)] at hmono
    cases hmono
    have hempty : n.children.getD i none = none := by
      obtain ⟨m, hm, -, ho⟩ := getChild_ok h1
      rw [hn] at hm; cases hm
      exact ho
    refine ⟨h4, rfl, fun k m hm => ?_, fun c' hc' => ?_⟩
    · obtain ⟨m', a1, a2, a3, -, -, a6⟩ := h5.old hm
      refine ⟨m', a1, a2, a3, fun j d hd => ?_⟩
      rw [a6]
      split
      · rename_i hkh
        subst hkh
        rw [hn] at hm; cases hm
        have hji : j ≠ i := by rintro rfl; rw [hempty] at hd; cases hd
        rw [List.getD_eq_getElem?_getD, List.getElem?_set_ne (Ne.symm hji), ← List.getD_eq_getElem?_getD]
        exact hd
      · exact hd
    · cases hc'
      exact h5.child hn (getD_eq_none (by rw [(hh.ok hn).children]; omega) hempty) (hh.ok hn).children

theorem child_alive {ops : FloatOps} {f : Forest} (hh : Healthy ops f) {h i c : Nat} (hc : f.getChild h i = .ok (some c)) :
    ∃ n, f.node c = some n := child_live hh hc

/-- What asking for a node leaves. -/
theorem walk_grows {ops : FloatOps} {cb : List Nat → Out Sprout} {fuel : Nat} {p : List Nat} : ∀ {t t' : DynTree} {pos : List Nat} {h : Nat}
    {r : Out Nat}, Healthy ops t.forest → (∃ n, t.forest.node h = some n) → t.walk ops cb fuel pos h p = some (t', r) →
    Healthy ops t'.forest ∧ t'.root = t.root ∧ Keeps t.forest t'.forest ∧ ∀ k, r = .ok k → Leads t'.forest h p k := by
  induction p with
  | nil =>
    intro t t' pos h r hh hn hx
    cases hx
    exact ⟨hh, rfl, .refl _, fun k hk => by cases hk; exact .here⟩
  | cons i p ih =>
    intro t t' pos h r hh hn hx
    simp only [walk] at hx
    cases hc : t.getChild ops cb fuel pos h i with
    | none => rw [hc] at hx; cases hx
    | some x =>
      obtain ⟨t1, r1⟩ := x
      obtain ⟨h1, h2, h3, h4⟩ := getChild_grows hh hn hc
      rw [hc] at hx
      cases r1 with
      | ub => cases hx; exact ⟨h1, h2, h3, (fun _ h => nomatch h)⟩
      | err e => cases hx; exact ⟨h1, h2, h3, (fun _ h => nomatch h)⟩
      | ok c =>
        have hcc := h4 c rfl
        obtain ⟨h5, h6, h7, h8⟩ := ih h1 (child_alive h1 hcc) hx
        exact ⟨h5, h6.trans h2, h3.trans h7, fun k hk => .down (h7.getChild hcc) (h8 k hk)⟩

/-- What asking for values leaves. -/
theorem walkValues_grows {ops : FloatOps} {cb : List Nat → Out Sprout} {fuel : Nat} {p : List Nat} : ∀ {t t' : DynTree} {pos : List Nat} {h : Nat}
    {r : Out (List Value)}, Healthy ops t.forest → (∃ n, t.forest.node h = some n) → t.walkValues ops cb fuel pos h p = some (t', r) →
    Healthy ops t'.forest ∧ t'.root = t.root ∧ Keeps t.forest t'.forest ∧ ∀ vs, r = .ok vs → Met t'.forest h p vs := by
  induction p with
  | nil =>
    intro t t' pos h r hh hn hx
    cases hx
    exact ⟨hh, rfl, .refl _, fun k hk => by cases hk; exact .here⟩
  | cons i p ih =>
    intro t t' pos h r hh hn hx
    simp only [walkValues] at hx
    cases hc : t.getChild ops cb fuel pos h i with
    | none => rw [hc] at hx; cases hx
    | some x =>
      obtain ⟨t1, r1⟩ := x
      obtain ⟨h1, h2, h3, h4⟩ := getChild_grows hh hn hc
      rw [hc] at hx
      cases r1 with
      | ub => cases hx; exact ⟨h1, h2, h3, (fun _ h => nomatch h)⟩
      | err e => cases hx; exact ⟨h1, h2, h3, (fun _ h => nomatch h)⟩
      | ok c =>
        have hcc := h4 c rfl
        dsimp only at hx
        cases hv : t1.forest.getValue c with
        | ub => rw [hv] at hx; cases hx; exact ⟨h1, h2, h3, (fun _ h => nomatch h)⟩
        | err e => rw [hv] at hx; cases hx; exact ⟨h1, h2, h3, (fun _ h => nomatch h)⟩
        | ok v =>
          rw [hv] at hx
          dsimp only at hx
          cases hw : t1.walkValues ops cb fuel (pos ++ [i]) c p with
          | none => rw [hw] at hx; cases hx
          | some y =>
            obtain ⟨t2, r2⟩ := y
            obtain ⟨h5, h6, h7, h8⟩ := ih h1 (child_alive h1 hcc) hw
            rw [hw] at hx
            cases r2 with
            | ub => cases hx; exact ⟨h5, h6.trans h2, h3.trans h7, (fun _ h => nomatch h)⟩
            | err e => cases hx; exact ⟨h5, h6.trans h2, h3.trans h7, (fun _ h => nomatch h)⟩
            | ok vs =>
              cases hx
              refine ⟨h5, h6.trans h2, h3.trans h7, fun ws hws => ?_⟩
              cases hws
              exact .down (h7.getChild hcc) (h7.getValue hv) (h8 vs rfl)

/-- What asking whether a position is valid leaves. -/
theorem validLoop_grows {ops : FloatOps} {cb : List Nat → Out Sprout} {fuel : Nat} {p : List Nat} : ∀ {t t' : DynTree} {pos : List Nat} {h : Nat}
    {r : Out Bool}, Healthy ops t.forest → (∃ n, t.forest.node h = some n) → t.validLoop ops cb fuel pos h p = some (t', r) →
    Healthy ops t'.forest ∧ t'.root = t.root ∧ Keeps t.forest t'.forest ∧ ∀ b, r = .ok b → Judged t'.forest h p b := by
  induction p with
  | nil =>
    intro t t' pos h r hh hn hx
    cases hx
    exact ⟨hh, rfl, .refl _, fun k hk => by cases hk; exact .here⟩
  | cons i p ih =>
    intro t t' pos h r hh hn hx
    simp only [validLoop] at hx
    cases ha : t.forest.getArity h with
    | ub => rw [ha] at hx; cases hx; exact ⟨hh, rfl, .refl _, (fun _ h => nomatch h)⟩
    | err e => rw [ha] at hx; cases hx; exact ⟨hh, rfl, .refl _, (fun _ h => nomatch h)⟩
    | ok a =>
      rw [ha] at hx
      dsimp only at hx
      by_cases hi : a ≤ i
      · rw [if_pos hi] at hx
        cases hx
        refine ⟨hh, rfl, .refl _, fun b hb => ?_⟩
        cases hb
        obtain ⟨n, hn⟩ := hn
        simp only [getArity, hn] at ha
        cases ha
        exact .past hn hi
      · rw [if_neg hi] at hx
        cases hc : t.getChild ops cb fuel pos h i with
        | none => rw [hc] at hx; cases hx
        | some x =>
          obtain ⟨t1, r1⟩ := x
          obtain ⟨h1, h2, h3, h4⟩ := getChild_grows hh hn hc
          rw [hc] at hx
          cases r1 with
          | ub => cases hx; exact ⟨h1, h2, h3, (fun _ h => nomatch h)⟩
          | err e => cases hx; exact ⟨h1, h2, h3, (fun _ h => nomatch h)⟩
          | ok c =>
            have hcc := h4 c rfl
            obtain ⟨h5, h6, h7, h8⟩ := ih h1 (child_alive h1 hcc) hx
            exact ⟨h5, h6.trans h2, h3.trans h7, fun b hb => .down (h7.getChild hcc) (h8 b hb)⟩

/-! ## Questions whose nodes are there do not call the callback -/

theorem walk_there (ops : FloatOps) (cb : List Nat → Out Sprout) (fuel : Nat) {t : DynTree} {h k : Nat} {p : List Nat}
    (hl : Leads t.forest h p k) : ∀ pos, t.walk ops cb fuel pos h p = some (t, .ok k) := by
  induction hl with
  | here => intro pos; rfl
  | down hc _ ih =>
    intro pos
    simp only [walk, getChild, hc]
    exact ih _

theorem walkValues_there (ops : FloatOps) (cb : List Nat → Out Sprout) (fuel : Nat) {t : DynTree} {h : Nat} {p : List Nat} {vs : List Value}
    (hl : Met t.forest h p vs) : ∀ pos, t.walkValues ops cb fuel pos h p = some (t, .ok vs) := by
  induction hl with
  | here => intro pos; rfl
  | down hc hv _ ih =>
    intro pos
    simp only [walkValues, getChild, hc, hv, ih]

theorem validLoop_there (ops : FloatOps) (cb : List Nat → Out Sprout) (fuel : Nat) {t : DynTree} {h : Nat} {p : List Nat} {b : Bool}
    (hl : Judged t.forest h p b) : ∀ pos, t.validLoop ops cb fuel pos h p = some (t, .ok b) := by
  induction hl with
  | here => intro pos; rfl
  | past hn hi =>
    intro pos
    simp only [validLoop, getArity, hn]
    rw [if_pos hi]
  | @down h i c p k hc _ ih =>
    intro pos
    obtain ⟨n, hn, hi, -⟩ := getChild_ok hc
    simp only [validLoop, getArity, hn, getChild, hc]
    rw [if_neg (by omega)]
    exact ih _

/-! ## Whole questions -/

/-- What the space keeps between questions. -/
structure Grows (ops : FloatOps) (t t' : DynTree) : Prop where
  healthy : Healthy ops t'.forest
  root : t'.root = t.root
  keeps : Keeps t.forest t'.forest

theorem nodeAt_grows {ops : FloatOps} {cb : List Nat → Out Sprout} {fuel : Nat} {t t' : DynTree} {p : List Nat} {r : Out Nat}
    (hh : Healthy ops t.forest) (hn : ∃ n, t.forest.node t.root = some n) (hx : t.nodeAt ops cb fuel p = some (t', r)) :
    Grows ops t t' ∧ ∀ k, r = .ok k → Leads t'.forest t.root p k := by
  obtain ⟨h1, h2, h3, h4⟩ := walk_grows hh hn hx
  exact ⟨⟨h1, h2, h3⟩, h4⟩

theorem valid_grows {ops : FloatOps} {cb : List Nat → Out Sprout} {fuel : Nat} {t t' : DynTree} {p : List Nat} {r : Out Bool}
    (hh : Healthy ops t.forest) (hn : ∃ n, t.forest.node t.root = some n) (hx : t.positionIsValid ops cb fuel p = some (t', r)) :
    Grows ops t t' ∧ ∀ b, r = .ok b → Judged t'.forest t.root p b := by
  obtain ⟨h1, h2, h3, h4⟩ := validLoop_grows hh hn hx
  exact ⟨⟨h1, h2, h3⟩, h4⟩

theorem valuesAt_grows {ops : FloatOps} {cb : List Nat → Out Sprout} {fuel : Nat} {t t' : DynTree} {p : List Nat} {room : Nat}
    {r : Out (List Value)} (hh : Healthy ops t.forest) (hn : ∃ n, t.forest.node t.root = some n)
    (hx : t.valuesAt ops cb fuel p room = some (t', r)) :
    Grows ops t t' ∧ ∀ vs, r = .ok vs → p.length < room ∧ ∃ v ws, t'.forest.getValue t.root = .ok v ∧ Met t'.forest t.root p ws ∧
      vs = v :: ws ++ List.replicate (room - (p.length + 1)) .none := by
  unfold valuesAt at hx
  have same : Grows ops t t := ⟨hh, rfl, .refl _⟩
  by_cases hr : room < p.length + 1
  · rw [if_pos hr] at hx
    cases hx
    exact ⟨same, (fun _ h => nomatch h)⟩
  rw [if_neg hr] at hx
  cases hv : t.forest.getValue t.root with
  | ub => rw [hv] at hx; cases hx; exact ⟨same, (fun _ h => nomatch h)⟩
  | err e => rw [hv] at hx; cases hx; exact ⟨same, (fun _ h => nomatch h)⟩
  | ok v =>
    rw [hv] at hx
    dsimp only at hx
    cases hw : t.walkValues ops cb fuel [] t.root p with
    | none => rw [hw] at hx; cases hx
    | some y =>
      obtain ⟨t1, r1⟩ := y
      obtain ⟨h1, h2, h3, h4⟩ := walkValues_grows hh hn hw
      rw [hw] at hx
      cases r1 with
      | ub => cases hx; exact ⟨⟨h1, h2, h3⟩, (fun _ h => nomatch h)⟩
      | err e => cases hx; exact ⟨⟨h1, h2, h3⟩, (fun _ h => nomatch h)⟩
      | ok ws =>
        cases hx
        refine ⟨⟨h1, h2, h3⟩, fun vs hvs => ?_⟩
        cases hvs
        exact ⟨by omega, v, ws, h3.getValue hv, h4 ws rfl, rfl⟩

theorem query_grows {ops : FloatOps} {cb : List Nat → Out Sprout} {fuel : Nat} {t t' : DynTree} {q : Query}
    (hh : Healthy ops t.forest) (hn : ∃ n, t.forest.node t.root = some n) (hx : t.query ops cb fuel q = some t') : Grows ops t t' := by
  cases q with
  | node p =>
    obtain ⟨⟨a, r⟩, h1, h2⟩ := Option.map_eq_some_iff.1 hx
    cases h2
    exact (nodeAt_grows hh hn h1).1
  | values p room =>
    obtain ⟨⟨a, r⟩, h1, h2⟩ := Option.map_eq_some_iff.1 hx
    cases h2
    exact (valuesAt_grows hh hn h1).1
  | valid p =>
    obtain ⟨⟨a, r⟩, h1, h2⟩ := Option.map_eq_some_iff.1 hx
    cases h2
    exact (valid_grows hh hn h1).1

theorem Grows.live {ops : FloatOps} {t t' : DynTree} (hg : Grows ops t t') (hn : ∃ n, t.forest.node t.root = some n) :
    ∃ n, t'.forest.node t'.root = some n := by
  obtain ⟨n, hn⟩ := hn
  obtain ⟨n', h1, -⟩ := hg.keeps _ n hn
  exact ⟨n', by rw [hg.root]; exact h1⟩

theorem asked_grows {ops : FloatOps} {t t' : DynTree} (hh : Healthy ops t.forest) (hn : ∃ n, t.forest.node t.root = some n)
    (ha : Asked ops t t') : Grows ops t t' := by
  induction ha with
  | none => exact ⟨hh, rfl, .refl _⟩
  | ask _ hq ih =>
    have h2 := query_grows ih.healthy (ih.live hn) hq
    exact ⟨h2.healthy, h2.root.trans ih.root, ih.keeps.trans h2.keeps⟩

end DynTree

end CCS
