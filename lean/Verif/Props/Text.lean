import Verif.Lemmas.Text
import Verif.Spec.Ieee

/-!
# Expressions printed by the bindings and read back

C126: the text of an expression is read back as an expression of the same meaning.
-/

namespace CCS.Props

open CCS CCS.Text CCS.Text.Spec

/-! ## C126 -/

/-- **C126** (partial) An expression the grammar can express, no right operand of which is made with an operator of the precedence of the
operator it belongs to, and which does not contain the least integer outside of lists: its text is read back as an expression that
evaluates to the same outcome for all values of the parameters, and that depends on the same parameters.
Missing: the other expressions; see `C126_text_violated`. -/
theorem C126_text_partial (names : Names) (e : Expr) (he : Legible names e) (hu : Upright e) (hm : Moderate e) :
    ∃ e', parse names (print e) = some e' ∧ (∀ ops jen little env, eval ops jen little env e' = eval ops jen little env e) ∧
      e'.parameters = e.parameters := by
  refine ⟨_, parse_print he, fun ops jen little env => (eval_regroup ops jen little env he hu hm).1, ?_⟩
  show skipRepeats _ (sortAddr _) = skipRepeats _ (sortAddr _)
  rw [(eval_regroup CCS.Spec.ieee (fun _ => 0#32) true ⟨none, none⟩ he hu hm).2.2]

/-- **C126** (partial) Without negative numbers outside of lists, the expression read back is the same. -/
theorem C126_text_same_partial (names : Names) (e : Expr) (he : Legible names e) (hu : Upright e) (hs : Unsigned e) :
    parse names (print e) = some (blank e) := by
  rw [parse_print he, regroup_same he hu hs]

/-- **C126** The texts that are those of terminals: variables named by identifiers, and the values the grammar writes. -/
theorem C126_terminals (o : ObjMeta) (h : BitVec 64) (p : Param) (v : Value) :
    (print (.var o h p) = [.name p.name] ↔ Identifier p.name) ∧ (print (.literal o v) = [.value v] ↔ Writable v) := by
  constructor
  · rw [← identifier_iff]
    cases hc : identifier p.name <;> simp [print, hc]
  · refine ⟨fun hp => ?_, fun hw => by rw [print, literalText_eq hw]⟩
    have hp : literalText v = .value v := by simpa [print] using hp
    cases v with
    | none => trivial
    | int _ => trivial
    | float f =>
      show f.isFinite = true
      cases hc : f.isFinite with
      | true => rfl
      | false => simp [literalText, hc] at hp
    | bool b =>
      simp only [literalText, Value.ofBool, Tok.value.injEq, Value.bool.injEq] at hp
      show b = 0#64 ∨ b = 1#64
      rw [← hp]
      cases decide (b ≠ 0#64)
      · exact Or.inl rfl
      · exact Or.inr rfl
    | inactive => simp [literalText] at hp
    | obj _ => simp [literalText] at hp
    | str s =>
      cases s with
      | none => simp [literalText] at hp
      | some s =>
        by_cases hs : s ≠ [] ∧ s.all plainChar = true
        · exact ⟨hs.1, fun c hc => (plainChar_iff c).mp (List.all_eq_true.mp hs.2 c hc)⟩
        · simp only [literalText, if_neg hs] at hp
          cases hp

/-- **C126** An operand is parenthesised exactly when its operator binds less tightly than the one it is an operand of. -/
theorem C126_parentheses (o : ObjMeta) (op : Op) (a b : Expr) :
    (op ∈ prefixes → ∃ t, Operand op a t ∧ print (.node o op [a]) = .symbol (symbol op) :: t) ∧
    (op ∈ infixes → ∃ t u, Operand op a t ∧ Operand op b u ∧ print (.node o op [a, b]) = t ++ .symbol (symbol op) :: u) := by
  constructor
  · intro h
    refine ⟨_, wrap_operand op a, ?_⟩
    rw [print, if_neg (by rintro rfl; revert h; decide)]
    rfl
  · intro h
    refine ⟨_, _, wrap_operand op a, wrap_operand op b, ?_⟩
    rw [print, if_neg (by rintro rfl; revert h; decide)]
    rfl

/-- **C126** Two such expressions with the same text are the same. -/
theorem C126_text_unambiguous (names : Names) (e f : Expr) (he : Legible names e) (hu : Upright e) (hs : Unsigned e)
    (hf : Legible names f) (hu' : Upright f) (hs' : Unsigned f) (h : print e = print f) : blank e = blank f := by
  have h1 := C126_text_same_partial names e he hu hs
  have h2 := C126_text_same_partial names f hf hu' hs'
  rw [h, h2] at h1
  exact (Option.some.inj h1).symm

/-- **C126** The text of any expression the grammar can express is read, the operators of the same precedence being grouped from the
left. -/
theorem C126_text_grouped (names : Names) (e : Expr) (he : Legible names e) :
    parse names (print e) = some (regroup none e) := parse_print he

/-- **C126** The parser of the Python binding, which is given no context, reads the text of no expression with a variable. -/
theorem C126_text_variables (names : Names) (e : Expr) (he : Legible names e) (h : BitVec 64) (ho : CCS.Spec.Occurs h e) :
    parse noNames (print e) = none := by
  obtain ⟨n, hn⟩ := occurs_name he ho
  unfold parse
  rw [feedAll_name n _ _ hn]
  rfl

/-- An object without address. -/
abbrev textObj : ObjMeta := ⟨0#64, []⟩

/-- A literal integer. -/
abbrev number64 (i : BitVec 64) : Expr := .literal textObj (.int i)

/-- A parameter named `x`. -/
def textParam : Param := ⟨[120], .int 0#64, .string⟩

/-- The reader knows `x`. -/
def textNames : Names := fun n => if n = [120] then some (7#64, textParam) else none

/-- `(x + 2) * 3 - 1 <= x && !(x == 1) # [ -1, x ]`. -/
def textExample : Expr :=
  .node textObj .and [
    .node textObj .lessEq [
      .node textObj .sub [.node textObj .mul [.node textObj .add [.var textObj 7#64 textParam, number64 2#64], number64 3#64], number64 1#64],
      .var textObj 7#64 textParam],
    .node textObj .not [.node textObj .isIn [.node textObj .equal [.var textObj 7#64 textParam, number64 1#64],
      .node textObj .list [number64 (-1), .var textObj 7#64 textParam]]]]

/-- Non-vacuity. -/
example : Legible textNames textExample ∧ Upright textExample ∧ Unsigned textExample ∧ Moderate textExample ∧
    CCS.Spec.Occurs 7#64 textExample ∧
    print textExample = [.open, .name [120], .symbol "+", .value (.int 2#64), .close, .symbol "*", .value (.int 3#64), .symbol "-",
      .value (.int 1#64), .symbol "<=", .name [120], .symbol "&&", .symbol "!", .open, .name [120], .symbol "==", .value (.int 1#64),
      .close, .symbol "#", .openList, .value (.int (-1)), .comma, .name [120], .closeList] := by
  have hx : Leaf textNames (.var textObj 7#64 textParam) := .var ((identifier_iff _).mp (by decide)) (by decide)
  have hl : ∀ i, Leaf textNames (number64 i) := fun i => .literal trivial
  refine ⟨?_, ?_, ?_, ?_, ?_, by decide +kernel⟩
  · refine .between (by decide) (.between (by decide) (.between (by decide) (.between (by decide)
      (.between (by decide) (.leaf hx) (.leaf (hl _))) (.leaf (hl _))) (.leaf (hl _))) (.leaf hx))
      (.before (by decide) (.within (.between (by decide) (.leaf hx) (.leaf (hl _))) (by decide) ?_))
    intro i hi
    rcases List.mem_cons.mp hi with rfl | hi
    · exact hl _
    · obtain rfl := List.mem_singleton.mp hi
      exact hx
  · exact .between (by decide) (.between (by decide) (.between (by decide) (.between (by decide) (.between (by decide) .var .literal (by decide))
      .literal (by decide)) .literal (by decide)) .var (by decide)) (.before (by decide) (.within (.between (by decide) .var .literal (by decide))))
      (by decide)
  · have hn : ∀ i : BitVec 64, i ∈ [1#64, 2#64, 3#64] → Unsigned (number64 i) := by
      intro i hi
      refine .literal ?_
      simp only [List.mem_cons, List.not_mem_nil, or_false] at hi
      rcases hi with rfl | rfl | rfl <;> decide
    exact .between (by decide) (.between (by decide) (.between (by decide) (.between (by decide) (.between (by decide) .var (hn _ (by decide)))
      (hn _ (by decide))) (hn _ (by decide))) .var) (.before (by decide) (.within (.between (by decide) .var (hn _ (by decide)))))
  · have hn : ∀ i : BitVec 64, i ∈ [1#64, 2#64, 3#64] → Moderate (number64 i) := by
      intro i hi
      refine .literal ?_
      simp only [List.mem_cons, List.not_mem_nil, or_false] at hi
      rcases hi with rfl | rfl | rfl <;> decide
    exact .between (by decide) (.between (by decide) (.between (by decide) (.between (by decide) (.between (by decide) .var (hn _ (by decide)))
      (hn _ (by decide))) (hn _ (by decide))) .var) (.before (by decide) (.within (.between (by decide) .var (hn _ (by decide)))))
  · exact .inside (List.mem_cons_self ..) (.inside (List.mem_cons_of_mem _ (List.mem_cons_self ..)) .here)

/-- `5 - (2 - 1)`. -/
def nestedText : Expr := .node textObj .sub [number64 5#64, .node textObj .sub [number64 2#64, number64 1#64]]

/-- `-5 # [ -5 ]`, the number -5 being a literal. -/
def signedText : Expr := .node textObj .isIn [number64 (-5), .node textObj .list [number64 (-5)]]

/-- `1 # [ 1 + 0 ]`. -/
def listText : Expr := .node textObj .isIn [number64 1#64, .node textObj .list [.node textObj .add [number64 1#64, number64 0#64]]]

theorem nested_built : CCS.Spec.Built nestedText := by
  refine .expression (o := textObj) (os := [textObj]) (type := 9)
    (nodes := [.value (.int 5#64), .expr (.node textObj .sub [number64 2#64, number64 1#64])]) rfl ?_
  intro x hx
  rcases List.mem_cons.mp hx with h | h
  · cases h
  · obtain h := List.mem_singleton.mp h
    cases h
    refine .expression (o := textObj) (os := [textObj, textObj]) (type := 9) (nodes := [.value (.int 2#64), .value (.int 1#64)]) rfl ?_
    intro x hx
    rcases List.mem_cons.mp hx with h | h
    · cases h
    · cases List.mem_singleton.mp h

theorem signed_built : CCS.Spec.Built signedText := by
  refine .expression (o := textObj) (os := [textObj]) (type := 16)
    (nodes := [.value (.int (-5)), .expr (.node textObj .list [number64 (-5)])]) rfl ?_
  intro x hx
  rcases List.mem_cons.mp hx with h | h
  · cases h
  · obtain h := List.mem_singleton.mp h
    cases h
    refine .expression (o := textObj) (os := [textObj]) (type := 17) (nodes := [.value (.int (-5))]) rfl ?_
    intro x hx
    cases List.mem_singleton.mp hx

theorem listed_built : CCS.Spec.Built listText := by
  refine .expression (o := textObj) (os := [textObj]) (type := 16)
    (nodes := [.value (.int 1#64), .expr (.node textObj .list [.node textObj .add [number64 1#64, number64 0#64]])]) rfl ?_
  intro x hx
  rcases List.mem_cons.mp hx with h | h
  · cases h
  · obtain h := List.mem_singleton.mp h
    cases h
    refine .expression (o := textObj) (os := []) (type := 17) (nodes := [.expr (.node textObj .add [number64 1#64, number64 0#64])]) rfl ?_
    intro x hx
    cases List.mem_singleton.mp hx
    refine .expression (o := textObj) (os := [textObj, textObj]) (type := 8) (nodes := [.value (.int 1#64), .value (.int 0#64)]) rfl ?_
    intro x hx
    rcases List.mem_cons.mp hx with h | h
    · cases h
    · cases List.mem_singleton.mp h

/-- **C126** (violation) `5 - (2 - 1)` is 4 and prints as `5 - 2 - 1`, which is read as 2; `-5 # [ -5 ]` is true and is read as the
opposite of `5 # [ -5 ]`, which is refused; the text of `1 # [ 1 + 0 ]`, which is true, is not read at all. -/
theorem C126_text_violated (ops : FloatOps) (jen : Bytes → BitVec 32) (env : Env) :
    (CCS.Spec.Built nestedText ∧ eval ops jen true env nestedText = .ok (.int 4#64) ∧
      ∃ e, parse noNames (print nestedText) = some e ∧ eval ops jen true env e = .ok (.int 2#64)) ∧
    (CCS.Spec.Built signedText ∧ eval ops jen true env signedText = .ok (.bool 1#64) ∧
      ∃ e, parse noNames (print signedText) = some e ∧ eval ops jen true env e = .err .invalidValue) ∧
    (CCS.Spec.Built listText ∧ eval ops jen true env listText = .ok (.bool 1#64) ∧ parse noNames (print listText) = none) := by
  refine ⟨⟨nested_built, by rfl, ?_⟩, ⟨signed_built, by rfl, ?_⟩, listed_built, by rfl, by rfl⟩
  · refine ⟨.node fresh .sub [.node fresh .sub [number64 5#64, number64 2#64], number64 1#64], by rfl, by rfl⟩
  · refine ⟨.node fresh .negative [.node fresh .isIn [number64 5#64, .node fresh .list [number64 (-5)]]], by rfl, by rfl⟩

end CCS.Props
