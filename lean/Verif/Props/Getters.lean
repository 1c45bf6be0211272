import Verif.Spec.Getters
import Mathlib.Data.List.Forall2
import Verif.Lemmas.SpaceRun
import Verif.Lemmas.Interval

/-!
# Reading objects back

C121: the calls that list give everything, in order, and the calls that give one element agree with them.
C122: what is read back is what was put in.
-/

namespace CCS.Props

open CCS CCS.Spec

/-! ## Lemmas -/

theorem overwrite_all {α : Type} : ∀ (m vs : List α), vs.length ≤ m.length →
    overwrite m vs = .ok (vs ++ m.drop vs.length)
  | m, [], _ => by simp [overwrite]
  | [], _ :: _, h => absurd h (by simp)
  | x :: m, v :: vs, h => by
    have h' : vs.length ≤ m.length := by simpa using h
    simp [overwrite, overwrite_all m vs h']

theorem giveList_lists {α : Type} (pad : α) (l : List α) : Lists (giveList pad l) pad l where
  counted := by simp [giveList]
  whole := by
    intro n m c h1 h2
    have hlen : (l ++ List.replicate (n - l.length) pad).length = n := by simp; omega
    have h3 : ¬ n < l.length := by omega
    unfold giveList
    rw [if_neg (by simp), if_neg (by simp)]
    simp only [if_neg h3]
    rw [overwrite_all _ _ (by rw [hlen]; exact h2), hlen]
    rfl
  small := by
    intro n m c h
    unfold giveList
    rw [if_neg (by simp), if_neg (by simp)]
    simp only [if_pos h]
    rfl
  missing := by
    intro n c h
    unfold giveList
    rw [if_pos ⟨h, rfl⟩]
  nothing := by simp [giveList]

/-! ## C121 -/

/-- **C121** The conditions of a configuration space, one per parameter, are listed whole; a parameter without a condition
has NULL. -/
theorem C121_conditions (s : Space) : Lists s.getConditions none ((Spec.conditions s).map (·.2)) := by
  have h : (Spec.conditions s).map (·.2) = s.params.map (·.condition) := by
    simp [Spec.conditions]
  rw [h]
  exact giveList_lists none _

/-- **C121** The forbidden clauses of a configuration space are listed whole. -/
theorem C121_clauses (s : Space) : Lists s.getForbiddenClauses none (s.clauses.map some) := giveList_lists none _

/-- **C121** The nodes of an expression are listed whole; their number is the one reported. -/
theorem C121_nodes (e : Expr) : Lists e.getNodes none (e.children.map some) ∧ e.getNumNodes = e.children.length :=
  ⟨giveList_lists none _, rfl⟩

/-- **C121** The components of a mixture and of a multivariate distribution are listed whole. -/
theorem C121_components (m : MixtureData) (ds : List DistObj) (data : Bytes) :
    Lists (DistObj.mixture m ds data).getMixture none (ds.map some) ∧
    Lists (DistObj.multivariate ds data).getMultivariate none (ds.map some) :=
  ⟨giveList_lists none _, giveList_lists none _⟩

/-- **C121** The components are refused of any other distribution. -/
theorem C121_components_refused (d : DistObj) (a : Asked (Option DistObj)) :
    ((∀ m ds data, d ≠ .mixture m ds data) → d.getMixture a = .err .invalidDistribution) ∧
    ((∀ ds data, d ≠ .multivariate ds data) → d.getMultivariate a = .err .invalidDistribution) := by
  constructor
  · intro h
    cases d with
    | mixture m ds data => exact absurd rfl (h m ds data)
    | uniform => rfl
    | normal => rfl
    | roulette => rfl
    | multivariate => rfl
  · intro h
    cases d with
    | multivariate ds data => exact absurd rfl (h ds data)
    | uniform => rfl
    | normal => rfl
    | roulette => rfl
    | mixture => rfl

/-- **C121** The objectives are listed whole, expressions and types side by side; the room beyond them is filled with NULL and
MINIMIZE, and nothing is written beyond the announced size. -/
theorem C121_objectives (s : ObjSpace) (n : Nat) (es : List (Option Expr)) (ts : List (BitVec 32)) (c : Bool)
    (hn : s.objectives.length ≤ n) (hes : n ≤ es.length) (hts : n ≤ ts.length) :
    s.getObjectives n (some es) (some ts) c = .ok
      (some (s.objectives.map (fun o => some o.expression) ++ List.replicate (n - s.objectives.length) none ++ es.drop n),
       some (s.objectives.map (·.type) ++ List.replicate (n - s.objectives.length) 0#32 ++ ts.drop n),
       if c then some s.objectives.length else none) := by
  have h1 : (s.objectives.map (fun o => some o.expression) ++
      List.replicate (n - s.objectives.length) none : List (Option Expr)).length = n := by simp; omega
  have h2 : (s.objectives.map (·.type) ++ List.replicate (n - s.objectives.length) 0#32).length = n := by simp; omega
  have h3 : ¬ n < s.objectives.length := by omega
  unfold ObjSpace.getObjectives
  rw [if_neg (by simp), if_neg (by simp), if_neg (by simp)]
  simp only [if_neg h3]
  rw [overwrite_all _ _ (by rw [h1]; exact hes), h1]
  simp only [Option.getD_some]
  rw [Out.bind_ok, overwrite_all _ _ (by rw [h2]; exact hts), h2]
  rfl

/-- **C121** The number of objectives is given alone; too little room, a size without both arrays and a call asking for
nothing are refused.  No call, whatever its pointers, writes through a NULL pointer: with no array of types the announced size
is 0, so that there is no objective to write. -/
theorem C121_objectives_otherwise (s : ObjSpace) :
    s.getObjectives 0 none none true = .ok (none, none, some s.objectives.length) ∧
    (∀ n es ts c, n < s.objectives.length → s.getObjectives n (some es) ts c = .err .invalidValue) ∧
    (∀ n es ts c, 0 < n → es = none ∨ ts = none → s.getObjectives n es ts c = .err .invalidValue) ∧
    (∀ n ts, s.getObjectives n none ts false = .err .invalidValue) ∧
    (∀ n es ts c, (∀ m, es = some m → n ≤ m.length) → (∀ m, ts = some m → n ≤ m.length) →
      s.getObjectives n es ts c ≠ .ub) := by
  have small : ∀ n es ts c, n < s.objectives.length → s.getObjectives n (some es) ts c = .err .invalidValue := by
    intro n es ts c h
    unfold ObjSpace.getObjectives
    rw [if_neg (by simp)]
    by_cases h2 : 0 < n ∧ ts = none
    · rw [if_pos h2]
    · rw [if_neg h2, if_neg (by simp)]
      simp only [if_pos h]
  refine ⟨by simp [ObjSpace.getObjectives], small, ?_, ?_, ?_⟩
  · intro n es ts c h he
    unfold ObjSpace.getObjectives
    by_cases h1 : es = none
    · rw [if_pos ⟨h, h1⟩]
    · rw [if_neg (fun x => h1 x.2), if_pos ⟨h, he.resolve_left h1⟩]
  · intro n ts
    unfold ObjSpace.getObjectives
    by_cases h1 : 0 < n
    · rw [if_pos ⟨h1, rfl⟩]
    · rw [if_neg (fun x => h1 x.1), if_neg (fun x => h1 x.1), if_pos ⟨rfl, rfl⟩]
  · intro n es ts c hes hts
    cases es with
    | none =>
      unfold ObjSpace.getObjectives
      split
      · simp
      · split
        · simp
        · split <;> simp
    | some m =>
      by_cases h : n < s.objectives.length
      · rw [small n m ts c h]; simp
      · cases ts with
        | some t =>
          rw [C121_objectives s n m t c (by omega) (hes m rfl) (hts t rfl)]
          simp
        | none =>
          by_cases hn : 0 < n
          · unfold ObjSpace.getObjectives
            rw [if_neg (by simp), if_pos ⟨hn, rfl⟩]
            simp
          · have h0 : n = 0 := by omega
            have hl : s.objectives = [] := List.length_eq_zero_iff.mp (by omega)
            subst h0
            simp [ObjSpace.getObjectives, hl, overwrite]

/-- **C121** Reading one element agrees with the list, for positions below `2^32`: conditions, forbidden clauses,
objectives; positions at or beyond the end are refused. -/
theorem C121_elements (s : Space) (o : ObjSpace) (i : Nat) (hi : i < 4294967296) :
    s.getCondition i = (match (Spec.conditions s)[i]? with | some x => .ok x.2 | none => .err .outOfBounds) ∧
    s.getForbiddenClause i = (match s.clauses[i]? with | some e => .ok e | none => .err .outOfBounds) ∧
    o.getObjective i = (match o.objectives[i]? with | some x => .ok x | none => .err .outOfBounds) := by
  have hu : toUint i = i := Nat.mod_eq_of_lt hi
  refine ⟨?_, ?_, ?_⟩
  · unfold Space.getCondition Spec.conditions
    rw [hu, List.getElem?_map]
    cases s.params[i]? <;> rfl
  · unfold Space.getForbiddenClause
    rw [hu]
    cases s.clauses[i]? <;> rfl
  · unfold ObjSpace.getObjective
    rw [hu]
    cases o.objectives[i]? <;> rfl

/-- **C121, violated** Positions are reduced modulo `2^32`: asked for the clause, the condition or the objective at position
`2^32 + i`, beyond the end of any list a machine holds, the library gives the one at position `i` where it should refuse. -/
theorem C121_position_wraps (s : Space) (o : ObjSpace) (i : Nat) :
    s.getCondition (4294967296 + i) = s.getCondition i ∧
    s.getForbiddenClause (4294967296 + i) = s.getForbiddenClause i ∧
    o.getObjective (4294967296 + i) = o.getObjective i := by
  have hu : toUint (4294967296 + i) = toUint i := Nat.add_mod_left _ _
  refine ⟨?_, ?_, ?_⟩
  · unfold Space.getCondition; rw [hu]
  · unfold Space.getForbiddenClause; rw [hu]
  · unfold ObjSpace.getObjective; rw [hu]

/-- **C121, violated** A concrete case: a space with one forbidden clause gives it for the position `2^32`. -/
theorem C121_position_wraps_case : ∃ (s : Space) (e : Expr), s.clauses.length = 1 ∧
    s.getForbiddenClause 4294967296 = .ok e ∧ s.getForbiddenClause 1 = .err .outOfBounds :=
  ⟨{ Space.empty with clauses := [.literal ⟨1#64, []⟩ (.bool 0#64)] }, .literal ⟨1#64, []⟩ (.bool 0#64), rfl, rfl, rfl⟩

/-- **C121** Evaluating the item at a position of a list gives the value of the node at that position; other expressions
and positions beyond the end are refused. -/
theorem C121_list_items (ops : FloatOps) (jen : Bytes → BitVec 32) (little : Bool) (env : Env) (e : Expr) (i : Nat) :
    (e.getType = 17 → ∀ c, e.children[i]? = some c → e.evalNode ops jen little env i = eval ops jen little env c) ∧
    (e.getType = 17 → e.getNumNodes ≤ i → e.evalNode ops jen little env i = .err .outOfBounds) ∧
    (e.getType ≠ 17 → e.evalNode ops jen little env i = .err .invalidExpression) := by
  cases e with
  | literal o v => simp [Expr.getType, Expr.evalNode]
  | var o h p => simp [Expr.getType, Expr.evalNode]
  | node o op args =>
    have hop : op.code = 17 ↔ op = .list := by cases op <;> simp [Op.code]
    simp only [Expr.getType, Expr.children, Expr.getNumNodes, Expr.evalNode, hop]
    refine ⟨?_, ?_, ?_⟩
    · intro h c hc
      rw [if_pos h, hc]
    · intro h hl
      rw [if_pos h, List.getElem?_eq_none hl]
    · intro h
      rw [if_neg (fun x => h (hop.mpr x))]

/-- A list of two clauses read by the two calls the documentation describes. -/
example : let s : Space := { Space.empty with
      clauses := [.literal ⟨1#64, []⟩ (.bool 0#64), .literal ⟨2#64, []⟩ (.bool 0#64)] }
    s.getForbiddenClauses ⟨0, none, true⟩ = .ok (none, some 2) ∧
    s.getForbiddenClauses ⟨3, some [none, none, none, none], false⟩ =
      .ok (some [some (.literal ⟨1#64, []⟩ (.bool 0#64)), some (.literal ⟨2#64, []⟩ (.bool 0#64)), none, none], none) :=
  ⟨rfl, rfl⟩

/-! ## C122 -/

section
variable {ops : FloatOps} {jen : Bytes → BitVec 32} {little : Bool} {mem : BitVec 64 → Param} {mk : Nat → Param → Out Dist}

theorem sameSpace_content {s s' : Space} (h : SameSpace s s') : contentOf s' = contentOf s := by
  unfold contentOf
  rw [h.conditions, h.clauses]

theorem redistributed_content {s s' : Space} (hl : s'.params.length = s.params.length) (hc : s'.clauses = s.clauses)
    (hp : ∀ (i : Nat) w, s.params[i]? = some w → ∃ w', s'.params[i]? = some w' ∧ SameParam w w') :
    contentOf s' = contentOf s := by
  unfold contentOf
  rw [hc]
  congr 1
  unfold Spec.conditions
  apply List.ext_getElem?
  intro i
  rw [List.getElem?_map, List.getElem?_map]
  cases hs : s.params[i]? with
  | none =>
    have : s'.params[i]? = none := by
      rw [List.getElem?_eq_none_iff] at hs ⊢
      omega
    rw [this]
  | some w =>
    obtain ⟨w', h1, h2⟩ := hp i w hs
    rw [h1]
    simp only [Option.map_some]
    rw [h2.1, h2.2.2.1]

theorem conditions_modify (s : Space) (i : Nat) (e : Expr) :
    Spec.conditions (s.withCondition i (some e)) = (Spec.conditions s).modify i fun x => (x.1, some e) := by
  unfold Spec.conditions Space.withCondition
  apply List.ext_getElem?
  intro j
  simp only [List.getElem?_map, List.getElem?_modify]
  cases s.params[j]? with
  | none => rfl
  | some w =>
    by_cases h : i = j
    · simp [h]
    · simp [h]

/-- One call changes the content as recorded when it is accepted, and not at all when it is refused. -/
theorem step_content (hmk : OneDimensional mk) {s : Space} (hg : Good mem s) {op : SpaceOp} (hw : WellCalled op)
    (hn : Narrow op) :
    contentOf (Space.step ops jen little mem mk s op).1 =
      match (Space.step ops jen little mem mk s op).2 with
      | .ok () => (contentOf s).record op
      | _ => contentOf s := by
  cases op with
  | addParameter h d =>
    simp only [Space.step]
    rcases addParameter_outcomes hmk hg h d with ⟨e, he⟩ | ⟨he, -⟩ | ⟨d', he, -⟩
    · rw [he]
    · rw [he]
    · rw [he]
      simp [contentOf, Content.record, Spec.conditions, Space.pushParameter]
  | setDistribution d is =>
    have he := (step_good (ops := ops) (jen := jen) (little := little) hmk hg hw).2
    have : contentOf (Space.step ops jen little mem mk s (.setDistribution d is)).1 = contentOf s := by
      cases he with
      | same h _ _ => exact sameSpace_content h
      | fresh h _ => exact sameSpace_content h
      | redistributed hl _ hc _ _ hp => exact redistributed_content hl hc hp
    rw [this]
    split <;> rfl
  | setCondition i e =>
    simp only [Space.step]
    have hu : toUint i = i := Nat.mod_eq_of_lt hn
    rcases setCondition_outcomes hg.tables hg.graph i hw with ⟨-, he⟩ | ⟨w, c, -, -, he⟩ | ⟨w, s', r, hwi, hwc, he, hr⟩
    · rw [he]
    · rw [he]
    · rw [he]
      rcases hr with ⟨h1, -, -, hs, -⟩ | ⟨h1, -, -, hs, -⟩ | ⟨h1, -, hs, -⟩
      · rw [h1]
        simp only [contentOf, Content.record]
        rw [hs.conditions, hs.clauses, hu, conditions_modify]
        rfl
      · rw [h1]; exact sameSpace_content hs
      · rw [h1]; exact sameSpace_content hs
  | addClause e =>
    simp only [Space.step]
    unfold CCS.addClause
    cases hc : clauseTest ops jen little s e with
    | ok u => rfl
    | err x => rfl
    | ub => rfl
  | check vals =>
    have he := (step_good (ops := ops) (jen := jen) (little := little) hmk hg hw).2
    have : contentOf (Space.step ops jen little mem mk s (.check vals)).1 = contentOf s := by
      cases he with
      | same h _ _ => exact sameSpace_content h
      | fresh h _ => exact sameSpace_content h
    rw [this]
    split <;> rfl
  | sample t =>
    have he := (step_good (ops := ops) (jen := jen) (little := little) hmk hg hw).2
    have : contentOf (Space.step ops jen little mem mk s (.sample t)).1 = contentOf s := by
      cases he with
      | same h _ _ => exact sameSpace_content h
      | fresh h _ => exact sameSpace_content h
    rw [this]
    split <;> rfl
  | samples t n =>
    have he := (step_good (ops := ops) (jen := jen) (little := little) hmk hg hw).2
    have : contentOf (Space.step ops jen little mem mk s (.samples t n)).1 = contentOf s := by
      cases he with
      | same h _ _ => exact sameSpace_content h
      | fresh h _ => exact sameSpace_content h
    rw [this]
    split <;> rfl

theorem run_content (hmk : OneDimensional mk) : ∀ (history : List SpaceOp) (s : Space), Good mem s →
    (∀ op ∈ history, WellCalled op ∧ Narrow op) →
    contentOf (s.run ops jen little mem mk history) =
      (contentOf s).ledger (history.zip (answers ops jen little mem mk s history))
  | [], s, _, _ => rfl
  | op :: rest, s, hg, hw => by
    obtain ⟨hw1, hw2⟩ := List.forall_mem_cons.mp hw
    have h1 := (step_good (ops := ops) (jen := jen) (little := little) hmk hg hw1.1).1
    have h2 := step_content (ops := ops) (jen := jen) (little := little) hmk hg hw1.1 hw1.2
    have h3 := run_content hmk rest _ h1 hw2
    simp only [Space.run, answers, List.zip_cons_cons]
    rw [h3, h2]
    generalize (Space.step ops jen little mem mk s op).2 = r
    cases r with
    | ok u => rfl
    | err e => rfl
    | ub => rfl

/-- **C122** A configuration space holds what the accepted calls put in it, in order, and nothing else: after any history of
calls (successful or not, sampling and checks included), its parameters with their conditions and its forbidden clauses are
those recorded from the calls answered with success. -/
theorem C122_space_is_its_accepted_calls (hmk : OneDimensional mk) (history : List SpaceOp)
    (hw : ∀ op ∈ history, WellCalled op ∧ Narrow op) :
    let s := Space.empty.run ops jen little mem mk history
    let c := Content.ledger ⟨[], []⟩ (history.zip (answers ops jen little mem mk Space.empty history))
    Spec.conditions s = c.params ∧ s.clauses = c.clauses := by
  have h := run_content (ops := ops) (jen := jen) (little := little) hmk history Space.empty (good_empty mem) hw
  exact ⟨congrArg Content.params h, congrArg Content.clauses h⟩

/-- **C122** So the lists read back are what was accepted: conditions (NULL where none was set), clauses, in order. -/
theorem C122_space_lists (hmk : OneDimensional mk) (history : List SpaceOp)
    (hw : ∀ op ∈ history, WellCalled op ∧ Narrow op) :
    let s := Space.empty.run ops jen little mem mk history
    let c := Content.ledger ⟨[], []⟩ (history.zip (answers ops jen little mem mk Space.empty history))
    Lists s.getConditions none (c.params.map (·.2)) ∧ Lists s.getForbiddenClauses none (c.clauses.map some) := by
  obtain ⟨h1, h2⟩ := C122_space_is_its_accepted_calls (ops := ops) (jen := jen) (little := little) (mem := mem) hmk history hw
  refine ⟨?_, ?_⟩
  · rw [← h1]; exact C121_conditions _
  · rw [← h2]; exact C121_clauses _

end

/-- **C122** An objective space holds the accepted objectives, in order: after any history of calls adding parameters and
objectives, the objectives are those answered with success. -/
theorem C122_objectives_are_accepted (mem : BitVec 64 → Param) : ∀ (history : List ObjectiveOp) (s : ObjSpace),
    (objectiveRun mem s s.objectives history).1.objectives = (objectiveRun mem s s.objectives history).2
  | [], _ => rfl
  | .addParameter h :: rest, s => by
    simp only [objectiveRun, objectiveStep]
    exact C122_objectives_are_accepted mem rest (s.addParameter mem h).1
  | .addObjective o :: rest, s => by
    simp only [objectiveRun, objectiveStep, ObjSpace.addObjective]
    cases checkContext o.expression (some s.handles) with
    | ok u => exact C122_objectives_are_accepted mem rest { s with objectives := s.objectives ++ [o] }
    | err e => exact C122_objectives_are_accepted mem rest s
    | ub => exact C122_objectives_are_accepted mem rest s

/-- **C122** Adding several objectives at once adds a prefix of them: all of them exactly when the call succeeds. -/
theorem C122_several_objectives : ∀ (os : List Objective) (s : ObjSpace), ∃ k ≤ os.length,
    (s.addObjectives os).1.objectives = s.objectives ++ os.take k ∧ ((s.addObjectives os).2 = .ok () ↔ k = os.length)
  | [], s => ⟨0, Nat.le_refl _, by simp [ObjSpace.addObjectives], by simp [ObjSpace.addObjectives]⟩
  | o :: rest, s => by
    unfold ObjSpace.addObjectives
    unfold ObjSpace.addObjective
    cases checkContext o.expression (some s.handles) with
    | ok u =>
      obtain ⟨k, h1, h2, h3⟩ := C122_several_objectives rest { s with objectives := s.objectives ++ [o] }
      refine ⟨k + 1, by simpa using h1, ?_, ?_⟩
      · simp only
        rw [h2]
        simp
      · simp only
        rw [h3]
        simp
    | err e => exact ⟨0, Nat.zero_le _, by simp, by simp⟩
    | ub => exact ⟨0, Nat.zero_le _, by simp, by simp⟩

/-- **C122** Adding several forbidden clauses at once adds a prefix of them: all of them exactly when the call succeeds. -/
theorem C122_several_clauses (ops : FloatOps) (jen : Bytes → BitVec 32) (little : Bool) : ∀ (es : List Expr) (s : Space),
    ∃ k ≤ es.length, (addClauseList ops jen little s es).1 = { s with clauses := s.clauses ++ es.take k } ∧
      ((addClauseList ops jen little s es).2 = .ok () ↔ k = es.length)
  | [], s => ⟨0, Nat.le_refl _, by simp [addClauseList], by simp [addClauseList]⟩
  | e :: rest, s => by
    unfold addClauseList
    unfold CCS.addClause
    cases clauseTest ops jen little s e with
    | ok u =>
      obtain ⟨k, h1, h2, h3⟩ := C122_several_clauses ops jen little rest { s with clauses := s.clauses ++ [e] }
      refine ⟨k + 1, by simpa using h1, ?_, ?_⟩
      · simp only
        rw [h2]
        simp
      · simp only
        rw [h3]
        simp
    | err x => exact ⟨0, Nat.zero_le _, by simp, by simp⟩
    | ub => exact ⟨0, Nat.zero_le _, by simp, by simp⟩

theorem makeNodes_reads : ∀ (ns : List Node) (os : List ObjMeta) (es : List Expr), makeNodes os ns = .ok es →
    List.Forall₂ ComesFrom ns es
  | [], _, es, h => by
    cases h
    exact .nil
  | .expr e :: ns, os, es, h => by
    obtain ⟨es', h1, h2⟩ := bind_eq_ok (show (_ >>= _) = _ from h)
    cases h2
    exact .cons rfl (makeNodes_reads ns os es' h1)
  | .param a p :: ns, os, es, h => by
    obtain ⟨e, h1, h2⟩ := bind_eq_ok (show (_ >>= _) = _ from h)
    obtain ⟨es', h3, h4⟩ := bind_eq_ok h2
    cases h4
    unfold createVariable at h1
    split at h1
    · cases h1
    · cases h1
      exact .cons ⟨rfl, rfl⟩ (makeNodes_reads ns os.tail es' h3)
  | .value v :: ns, os, es, h => by
    obtain ⟨e, h1, h2⟩ := bind_eq_ok (show (_ >>= _) = _ from h)
    obtain ⟨es', h3, h4⟩ := bind_eq_ok h2
    cases h4
    unfold createLiteral at h1
    split at h1
    · cases h1
    · cases h1
      exact .cons ⟨rfl, rfl⟩ (makeNodes_reads ns os.tail es' h3)
  | .object :: ns, _, es, h => by cases h

/-- **C122** An expression gives back what it was created from: its type, and its nodes in order, each being the expression
passed, a variable on the parameter passed or a literal with the value passed. -/
theorem C122_expression (o : ObjMeta) (os : List ObjMeta) (type : Nat) (nodes : List Node) (e : Expr)
    (h : createExpression o os type nodes = .ok e) :
    e.getType = type ∧ e.getNumNodes = nodes.length ∧
    ∃ es, Lists e.getNodes none (es.map some) ∧ List.Forall₂ ComesFrom nodes es := by
  unfold createExpression at h
  cases hop : Op.ofCode type with
  | none => rw [hop] at h; cases h
  | some op =>
    rw [hop] at h
    simp only at h
    split at h
    · cases h
    · split at h
      · cases h
      · obtain ⟨es, h1, h2⟩ := bind_eq_ok h
        cases h2
        have hr := makeNodes_reads nodes os es h1
        refine ⟨?_, hr.length_eq.symm, es, (C121_nodes _).1, hr⟩
        show op.code = type
        unfold Op.ofCode at hop
        split at hop <;> first | (cases hop; rfl) | cases hop

/-- **C122** A literal and a variable give back what they were created from; each refuses the question asked to the other, and
has no node. -/
theorem C122_literal_variable (o : ObjMeta) (v : Value) (a : BitVec 64) (p : Param) (e : Expr) :
    (createLiteral o v = .ok e → e.getType = 18 ∧ e.getValue = .ok v ∧ e.getParameter = .err .invalidExpression ∧
      e.getNumNodes = 0) ∧
    (createVariable o a p = .ok e → e.getType = 19 ∧ e.getParameter = .ok a ∧ e.getValue = .err .invalidExpression ∧
      e.getNumNodes = 0) := by
  constructor
  · intro h
    unfold createLiteral at h
    split at h
    · cases h
    · cases h; exact ⟨rfl, rfl, rfl, rfl⟩
  · intro h
    unfold createVariable at h
    split at h
    · cases h
    · cases h; exact ⟨rfl, rfl, rfl, rfl⟩

/-- **C122** A uniform distribution gives back the bounds, scale and quantization it was created with, each output that is
asked for; asking for nothing is refused, and so is asking for the properties of a normal one. -/
theorem C122_uniform {σ : Type} (M : Machine σ) (type : NumType) (lower upper : BitVec 64) (log : Bool) (q : BitVec 64)
    (d : DistObj) (h : DistObj.newUniform M type lower upper log q = .ok d) (a b c e : Bool) :
    d.getUniform a b c e = (if (a || b || c || e) = false then .err .invalidValue
      else .ok (if a then some lower else none, if b then some upper else none, if c then some log else none,
        if e then some q else none)) ∧
    d.getNormal a b c e = .err .invalidDistribution := by
  obtain ⟨⟨⟩, -, h⟩ := bind_eq_ok (show (_ >>= _) = _ from h)
  obtain ⟨u, hu, h⟩ := bind_eq_ok h
  cases h
  have : u.lower = lower ∧ u.upper = upper ∧ u.log = log ∧ u.quantization = q := by
    unfold Uniform.fill at hu
    cases type with
    | float =>
      simp only at hu
      split at hu
      · next hl => cases hu; exact ⟨rfl, rfl, rfl, rfl⟩
      · cases hu; exact ⟨rfl, rfl, rfl, rfl⟩
    | int =>
      simp only at hu
      split at hu
      · cases hu; exact ⟨rfl, rfl, rfl, rfl⟩
      · obtain ⟨w, -, hu⟩ := bind_eq_ok hu
        split at hu
        · cases hu; exact ⟨rfl, rfl, rfl, rfl⟩
        · obtain ⟨t, -, hu⟩ := bind_eq_ok hu
          cases hu; exact ⟨rfl, rfl, rfl, rfl⟩
  obtain ⟨h1, h2, h3, h4⟩ := this
  constructor
  · simp only [DistObj.getUniform, answer, h1, h2, h3, h4]
  · rfl

/-- **C122** A normal distribution gives back the mean, deviation, scale and quantization it was created with. -/
theorem C122_normal (type : NumType) (mu sigma : F64) (log : Bool) (q : BitVec 64)
    (d : DistObj) (h : DistObj.newNormal type mu sigma log q = .ok d) (a b c e : Bool) :
    d.getNormal a b c e = (if (a || b || c || e) = false then .err .invalidValue
      else .ok (if a then some mu else none, if b then some sigma else none, if c then some log else none,
        if e then some q else none)) ∧
    d.getUniform a b c e = .err .invalidDistribution := by
  obtain ⟨⟨⟩, -, h⟩ := bind_eq_ok (show (_ >>= _) = _ from h)
  obtain ⟨⟨⟩, -, h⟩ := bind_eq_ok h
  cases h
  exact ⟨rfl, rfl⟩

/-- **C122** A mixture and a multivariate distribution give back the components they were created from, in order. -/
theorem C122_components {σ : Type} (M : Machine σ) (ds : List DistObj) (ws : List F64) (d : DistObj) :
    (DistObj.newMixture M ds ws = .ok d → Lists d.getMixture none (ds.map some)) ∧
    (DistObj.newMultivariate M ds = .ok d → Lists d.getMultivariate none (ds.map some)) := by
  constructor
  · intro h
    obtain ⟨s, -, h⟩ := bind_eq_ok (show (_ >>= _) = _ from h)
    cases h
    exact giveList_lists none _
  · intro h
    obtain ⟨s, -, h⟩ := bind_eq_ok (show (_ >>= _) = _ from h)
    cases h
    exact giveList_lists none _

/-- **C122** A numerical parameter gives back the type, bounds and quantization it was created with. -/
theorem C122_numerical (ops : FloatOps) (name : Bytes) (t : NumType) (lower upper q default : BitVec 64) (p : Param)
    (h : createNumerical ops name t lower upper q default = .ok p) (a b c e : Bool) :
    p.getNumerical a b c e = if (a || b || c || e) = false then .err .invalidValue
      else .ok (if a then some t else none, if b then some lower else none, if c then some upper else none,
        if e then some q else none) := by
  unfold createNumerical at h
  cases t with
  | int =>
    obtain ⟨r, -, h⟩ := bind_eq_ok (show (_ >>= _) = _ from h)
    split at h
    · cases h
    · cases h; rfl
  | float =>
    simp only at h
    split at h
    · cases h
    · cases h; rfl

/-- A sum of a parameter and a value, and its nodes. -/
example : ∃ e, createExpression ⟨1#64, []⟩ [⟨2#64, []⟩, ⟨3#64, []⟩] 8
      [.param 9#64 ⟨[65#8], .int 1#64, .string⟩, .value (.int 4#64)] = .ok e ∧
    e.getType = 8 ∧ e.getNumNodes = 2 ∧ e.children.map Expr.getType = [19, 18] := ⟨_, rfl, rfl, rfl, rfl⟩

/-- A history of three calls on an empty space: the second clause, true of the default configuration, is refused. -/
example (ops : FloatOps) (jen : Bytes → BitVec 32) (mem : BitVec 64 → Param) (mk : Nat → Param → Out Dist) :
    let history : List SpaceOp := [.addClause (.literal ⟨1#64, []⟩ (.bool 0#64)), .addClause (.literal ⟨2#64, []⟩ (.bool 1#64)),
      .addClause (.literal ⟨3#64, []⟩ (.bool 0#64))]
    answers ops jen true mem mk Space.empty history = [.ok (), .err .invalidConfiguration, .ok ()] ∧
    (Space.empty.run ops jen true mem mk history).clauses =
      [.literal ⟨1#64, []⟩ (.bool 0#64), .literal ⟨3#64, []⟩ (.bool 0#64)] ∧
    (∀ op ∈ history, WellCalled op ∧ Narrow op) := by
  refine ⟨rfl, rfl, ?_⟩
  intro op hop
  simp only [List.mem_cons, List.not_mem_nil, or_false] at hop
  rcases hop with rfl | rfl | rfl
  · exact ⟨Built.literal (o := ⟨1#64, []⟩) (v := .bool 0#64) rfl, trivial⟩
  · exact ⟨Built.literal (o := ⟨2#64, []⟩) (v := .bool 1#64) rfl, trivial⟩
  · exact ⟨Built.literal (o := ⟨3#64, []⟩) (v := .bool 0#64) rfl, trivial⟩

/-- A normal distribution and its properties. -/
example : ∃ d, DistObj.newNormal .float F64.zero F64.one false F64.zero = .ok d ∧
    d.getNormal true true false true = .ok (some F64.zero, some F64.one, none, some F64.zero) := ⟨_, rfl, rfl⟩

/-- A numerical parameter and its properties. -/
example (ops : FloatOps) : ∃ p, createNumerical ops [65#8] .int 0#64 10#64 2#64 3#64 = .ok p ∧
    p.getNumerical true true true true = .ok (some .int, some 0#64, some 10#64, some 2#64) := ⟨_, rfl, rfl⟩

end CCS.Props
