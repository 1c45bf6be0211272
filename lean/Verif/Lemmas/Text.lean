import Verif.Spec.Text
import Verif.Lemmas.Expr

/-!
# Reading what was printed
-/

namespace CCS.Text

open CCS CCS.Text.Spec

/-! ## Tables -/

theorem infix_facts : ∀ op ∈ infixes, infixes.find? (fun o => symbol o = symbol op) = some op ∧ fromLeft op = true ∧
    precedence op ≤ 5 ∧ op ≠ .list ∧ op ≠ .isIn := by decide

theorem prefix_facts : ∀ op ∈ prefixes, prefixes.find? (fun o => symbol o = symbol op) = some op ∧ fromLeft op = false ∧
    precedence op = 6 ∧ op ≠ .list ∧ op ≠ .isIn := by decide

theorem in_facts : infixes.find? (fun o => symbol o = symbol .isIn) = none := by decide

theorem reduces_infix {op : Op} (h : op ∈ infixes) (q : Nat) : reduces op q = decide (q ≤ precedence op) := by
  obtain ⟨-, h2, -⟩ := infix_facts op h
  unfold reduces
  rw [h2, Bool.eq_iff_iff]
  simp only [Bool.and_true, Bool.or_eq_true, decide_eq_true_eq]
  omega

theorem reduces_prefix {op : Op} (h : op ∈ prefixes) (q : Nat) : reduces op q = decide (q ≤ 5) := by
  obtain ⟨-, h2, h3, -⟩ := prefix_facts op h
  unfold reduces
  rw [h2, h3, Bool.eq_iff_iff]
  simp only [Bool.and_false, Bool.or_false, decide_eq_true_eq]
  omega

theorem reduces_mono {op : Op} {p q : Nat} (h : p ≤ q) (hq : reduces op q = true) : reduces op p = true := by
  unfold reduces at *
  simp only [Bool.or_eq_true, Bool.and_eq_true, decide_eq_true_eq] at *
  rcases hq with hq | ⟨h1, h2⟩
  · left; omega
  · rcases Nat.lt_or_ge p (precedence op) with h' | h'
    · exact Or.inl h'
    · exact Or.inr ⟨by omega, h2⟩

/-! ## The stack -/

/-- Nothing is reduced before an operator of priority `p`. -/
def Unmoved (p : Nat) (s : List Frame) : Prop := ∀ x, reduceBefore p x s = (x, s)

theorem unmoved_nil (p : Nat) : Unmoved p [] := fun _ => rfl

theorem unmoved_paren (p : Nat) (s : List Frame) : Unmoved p (.paren :: s) := fun _ => rfl

theorem unmoved_between {p : Nat} {l : Expr} {op : Op} {s : List Frame} (h : reduces op p = false) :
    Unmoved p (.between l op :: s) := by
  intro x
  rw [reduceBefore, h]
  rfl

theorem unmoved_before {p : Nat} {op : Op} {s : List Frame} (h : reduces op p = false) : Unmoved p (.before op :: s) := by
  intro x
  rw [reduceBefore, h]
  rfl

/-- An operator on the stack is reduced or not whatever the operand. -/
theorem reduceBefore_length (p : Nat) : ∀ (s : List Frame) (x : Expr), (reduceBefore p x s).2.length ≤ s.length := by
  intro s
  induction s with
  | nil => intro x; exact Nat.le_refl _
  | cons f s ih =>
    intro x
    cases f with
    | paren => exact Nat.le_refl _
    | before op =>
      rw [reduceBefore]
      split
      · exact Nat.le_succ_of_le (ih _)
      · exact Nat.le_refl _
    | between l op =>
      rw [reduceBefore]
      split
      · exact Nat.le_succ_of_le (ih _)
      · exact Nat.le_refl _

theorem Unmoved.mono {p q : Nat} {s : List Frame} (h : Unmoved p s) (hpq : p ≤ q) : Unmoved q s := by
  cases s with
  | nil => exact unmoved_nil q
  | cons f s =>
    cases f with
    | paren => exact unmoved_paren q s
    | before op =>
      apply unmoved_before
      cases hr : reduces op q with
      | false => rfl
      | true =>
        exfalso
        have h1 := h (.literal fresh .none)
        rw [reduceBefore, reduces_mono hpq hr, if_pos rfl] at h1
        have h2 := reduceBefore_length p s (.node fresh op [.literal fresh .none])
        rw [h1] at h2
        simp only [List.length_cons] at h2
        omega
    | between l op =>
      apply unmoved_between
      cases hr : reduces op q with
      | false => rfl
      | true =>
        exfalso
        have h1 := h (.literal fresh .none)
        rw [reduceBefore, reduces_mono hpq hr, if_pos rfl] at h1
        have h2 := reduceBefore_length p s (.node fresh op [l, .literal fresh .none])
        rw [h1] at h2
        simp only [List.length_cons] at h2
        omega

/-- Only operators of the grammar are on the stack. -/
def Known : Frame → Prop
  | .paren => True
  | .before op => op ∈ prefixes
  | .between _ op => op ∈ infixes

theorem reduceAll_eq : ∀ (s : List Frame) (x : Expr), (∀ f ∈ s, Known f) → reduceAll x s = reduceBefore 0 x s := by
  intro s
  induction s with
  | nil => intro x _; rfl
  | cons f s ih =>
    intro x hk
    have hf := hk f (List.mem_cons_self ..)
    have hs : ∀ f ∈ s, Known f := fun g hg => hk g (List.mem_cons_of_mem _ hg)
    cases f with
    | paren => rfl
    | before op =>
      rw [reduceAll, reduceBefore, reduces_prefix hf, if_pos (by decide)]
      exact ih _ hs
    | between l op =>
      rw [reduceAll, reduceBefore, reduces_infix hf, if_pos (by simp)]
      exact ih _ hs

theorem feedAll_append (names : Names) : ∀ (ts us : List Tok) (st : State),
    feedAll names st (ts ++ us) = (feedAll names st ts).bind fun st => feedAll names st us := by
  intro ts
  induction ts with
  | nil => intro us st; rfl
  | cons t ts ih =>
    intro us st
    show (feed names st t).bind _ = ((feed names st t).bind _).bind _
    cases feed names st t with
    | none => rfl
    | some st' => exact ih us st'

theorem known_cons {s : List Frame} {f : Frame} (hf : Known f) (hs : ∀ f ∈ s, Known f) : ∀ g ∈ f :: s, Known g := by
  intro g hg
  rcases List.mem_cons.mp hg with rfl | h
  · exact hf
  · exact hs g h

theorem reduceBefore_known (p : Nat) : ∀ (s : List Frame) (x : Expr), (∀ f ∈ s, Known f) → ∀ f ∈ (reduceBefore p x s).2, Known f := by
  intro s
  induction s with
  | nil => intro x h; exact h
  | cons f s ih =>
    intro x h
    have hs : ∀ f ∈ s, Known f := fun g hg => h g (List.mem_cons_of_mem _ hg)
    cases f with
    | paren => exact h
    | before op =>
      rw [reduceBefore]
      split
      · exact ih _ hs
      · exact h
    | between l op =>
      rw [reduceBefore]
      split
      · exact ih _ hs
      · exact h

/-! ## Texts -/

theorem print_between {o : ObjMeta} {op : Op} {a b : Expr} (h : op ∈ infixes) :
    print (.node o op [a, b]) =
      wrap (precedence op) a (print a) ++ .symbol (symbol op) :: wrap (precedence op) b (print b) := by
  obtain ⟨-, -, -, h4, -⟩ := infix_facts op h
  rw [print, if_neg h4]
  rfl

theorem print_before {o : ObjMeta} {op : Op} {a : Expr} (h : op ∈ prefixes) :
    print (.node o op [a]) = .symbol (symbol op) :: wrap (precedence op) a (print a) := by
  obtain ⟨-, -, -, h4, -⟩ := prefix_facts op h
  rw [print, if_neg h4]
  rfl

theorem print_within {o o' : ObjMeta} {a : Expr} {items : List Expr} :
    print (.node o .isIn [a, .node o' .list items]) =
      wrap 7 a (print a) ++ .symbol (symbol .isIn) :: .openList :: (join (printAll items) ++ [.closeList]) := by
  rw [print, if_neg (by decide)]
  show wrap 7 a (print a) ++ .symbol (symbol .isIn) :: wrap 7 (.node o' .list items) (print (.node o' .list items)) = _
  rw [wrap, wrap, if_neg (show ¬ level (.node o' .list items) < 7 from by show ¬ 8 < 7; decide), print, if_pos rfl]
  rfl

theorem regroup_between_none {o : ObjMeta} {op : Op} {a b : Expr} (h : op ∈ infixes) :
    regroup none (.node o op [a, b]) = regroup (some (regroup none a, op)) b := by
  cases op <;> first | (exfalso; revert h; decide) | simp only [regroup]

theorem regroup_between_some {o : ObjMeta} {op op' : Op} {a b l : Expr} (h : op ∈ infixes) (he : precedence op' = precedence op) :
    regroup (some (l, op')) (.node o op [a, b]) = regroup (some (regroup (some (l, op')) a, op)) b := by
  cases op <;> first | (exfalso; revert h; decide) | simp only [regroup, he, if_pos]

theorem regroup_between_ne {o : ObjMeta} {op op' : Op} {a b l : Expr} (h : op ∈ infixes) (he : precedence op' ≠ precedence op) :
    regroup (some (l, op')) (.node o op [a, b]) = .node fresh op' [l, regroup none (.node o op [a, b])] := by
  rw [regroup_between_none h]
  cases op <;> first | (exfalso; revert h; decide) | simp only [regroup, he, if_neg, joined, not_false_eq_true]

theorem regroup_before {c : Option (Expr × Op)} {o : ObjMeta} {op : Op} {a : Expr} (h : op ∈ prefixes) :
    regroup c (.node o op [a]) = joined c (.node fresh op [regroup none a]) := by
  cases op <;> first | (exfalso; revert h; decide) | simp only [regroup]

theorem regroup_within {c : Option (Expr × Op)} {o : ObjMeta} {a b : Expr} :
    regroup c (.node o .isIn [a, b]) = joined c (.node fresh .isIn [regroup none a, blank b]) := by
  simp only [regroup]

/-- After an operand of another precedence, an expression is read on its own. -/
theorem regroup_apart {names : Names} {e : Expr} (he : Legible names e) {l : Expr} {op : Op}
    (hn : level e ≠ precedence op) : regroup (some (l, op)) e = .node fresh op [l, regroup none e] := by
  cases he with
  | leaf hl =>
    cases hl with
    | literal _ => simp only [regroup, joined]
    | var _ _ => simp only [regroup, joined]
  | before hop _ => rw [regroup_before hop, regroup_before hop]; rfl
  | between hop _ _ => exact regroup_between_ne hop (fun h => hn h.symm)
  | within _ _ _ => rw [regroup_within, regroup_within]; rfl

/-! ## Values -/

theorem letter_iff (c : Byte) : letter c = true ↔ c ∈ ascii "abcdefghijklmnopqrstuvwxyzABCDEFGHIJKLMNOPQRSTUVWXYZ_" := by
  revert c
  decide +kernel

theorem letter_or_digit (c : Byte) : (letter c || digit c) = true ↔
    c ∈ ascii "abcdefghijklmnopqrstuvwxyzABCDEFGHIJKLMNOPQRSTUVWXYZ_0123456789" := by
  revert c
  decide +kernel

theorem plainChar_iff (c : Byte) : plainChar c = true ↔ Plain c := by
  revert c
  decide +kernel

theorem identifier_iff (n : Bytes) : identifier n = true ↔ Identifier n := by
  have hk : keywords = ["none", "true", "false"].map ascii := by decide +kernel
  cases n with
  | nil =>
    constructor
    · intro h; cases h
    · rintro ⟨⟨c, cs, h, -⟩, -⟩
      cases h
  | cons c cs =>
    unfold identifier Identifier
    simp only [Bool.and_eq_true, List.all_eq_true, letter_iff, letter_or_digit, hk, List.mem_map, Bool.not_eq_true', List.cons.injEq]
    constructor
    · rintro ⟨⟨h1, h2⟩, h3⟩
      refine ⟨⟨c, cs, ⟨rfl, rfl⟩, h1, h2⟩, fun k hk hp => ?_⟩
      have := h3 (ascii k) ⟨k, hk, rfl⟩
      rw [List.isPrefixOf_iff_prefix.mpr hp] at this
      cases this
    · rintro ⟨⟨c', cs', ⟨rfl, rfl⟩, h1, h2⟩, h3⟩
      refine ⟨⟨h1, h2⟩, ?_⟩
      rintro _ ⟨k, hk, rfl⟩
      cases hc : List.isPrefixOf (ascii k) (c :: cs) with
      | false => rfl
      | true => exact absurd (List.isPrefixOf_iff_prefix.mp hc) (h3 k hk)

theorem tier_of (op : Op) (j : Nat) : op ∈ tiers.getD j [] ↔ j = precedence op := by
  rcases Nat.lt_or_ge j 9 with h | h
  · have : ∀ j : Fin 9, op ∈ tiers.getD j.1 [] ↔ j.1 = precedence op := by cases op <;> decide +kernel
    exact this ⟨j, h⟩
  · rw [List.getD_eq_getElem?_getD, List.getElem?_eq_none (by simpa [tiers] using h)]
    refine ⟨fun h => by simp at h, fun h' => ?_⟩
    have : precedence op < 9 := by cases op <;> decide
    omega

theorem looser_iff (op' op : Op) : Looser op' op ↔ precedence op' < precedence op := by
  simp only [Looser, tier_of]
  constructor
  · rintro ⟨j, ⟨i, hi, rfl⟩, rfl⟩; exact hi
  · exact fun h => ⟨_, ⟨_, h, rfl⟩, rfl⟩

theorem wrap_operand (op : Op) (e : Expr) : Operand op e (wrap (precedence op) e (print e)) := by
  have hl : precedence op < atomPrecedence := by cases op <;> decide
  have key : (∃ o op' args, e = .node o op' args ∧ Looser op' op) ↔ level e < precedence op := by
    simp only [looser_iff]
    cases e with
    | node o op' args => exact ⟨fun ⟨_, _, _, he, h⟩ => (by cases he; exact h), fun h => ⟨_, _, _, rfl, h⟩⟩
    | literal o v => exact ⟨fun ⟨_, _, _, he, _⟩ => (by cases he), fun h => absurd h (Nat.not_lt.mpr (Nat.le_of_lt hl))⟩
    | var o h p => exact ⟨fun ⟨_, _, _, he, _⟩ => (by cases he), fun h => absurd h (Nat.not_lt.mpr (Nat.le_of_lt hl))⟩
  unfold Operand wrap
  rw [key]
  by_cases h : level e < precedence op
  · exact Or.inl ⟨h, if_pos h⟩
  · exact Or.inr ⟨h, if_neg h⟩

theorem literalText_eq {v : Value} (h : Writable v) : literalText v = .value v := by
  cases v with
  | none => rfl
  | int i => rfl
  | float f =>
    have h' : f.isFinite = true := h
    show (if f.isFinite then _ else _) = _
    rw [if_pos h']
  | bool b =>
    have h' : b = 0#64 ∨ b = 1#64 := h
    rcases h' with rfl | rfl <;> rfl
  | str s =>
    cases s with
    | none => exact h.elim
    | some s =>
      have h' : s ≠ [] ∧ s.all plainChar = true := ⟨h.1, List.all_eq_true.mpr fun c hc => (plainChar_iff c).mpr (h.2 c hc)⟩
      show (if _ then _ else _) = _
      rw [if_pos h']
  | inactive => exact h.elim
  | obj _ => exact h.elim

theorem blank_leaf {names : Names} {e : Expr} (h : Leaf names e) : ∃ t, print e = [t] ∧
    item names t = some (blank e) ∧ t ≠ .closeList := by
  cases h with
  | literal hv =>
    refine ⟨_, rfl, ?_, ?_⟩
    · rw [literalText_eq hv]; rfl
    · rw [literalText_eq hv]; exact fun h => Tok.noConfusion h
  | var hi hn =>
    refine ⟨_, rfl, ?_, ?_⟩
    · rw [(identifier_iff _).mpr hi, if_pos rfl]
      show (names _).map _ = _
      rw [hn]
      rfl
    · rw [(identifier_iff _).mpr hi, if_pos rfl]; exact fun h => Tok.noConfusion h

theorem afterItem_read (names : Names) (x : Expr) (s : List Frame) : ∀ (items : List Expr) (done : List Expr),
    (∀ i ∈ items, Leaf names i) →
    ∀ d, items = d :: items.tail →
    feedAll names (.afterComma x done s) (join (printAll items)) = some (.afterItem x (done ++ blankAll items) s) := by
  intro items
  induction items with
  | nil => intro done _ d h; simp at h
  | cons i is ih =>
    intro done hl d _
    obtain ⟨t, h1, h2, h3⟩ := blank_leaf (hl i (List.mem_cons_self ..))
    cases is with
    | nil =>
      show feedAll names (.afterComma x done s) (print i) = _
      rw [h1]
      show ((item names t).map _).bind _ = _
      rw [h2]
      rfl
    | cons j js =>
      show feedAll names (.afterComma x done s) (print i ++ .comma :: join (printAll (j :: js))) = _
      rw [h1]
      show ((item names t).map _).bind _ = _
      rw [h2]
      show feedAll names (.afterComma x (done ++ [blank i]) s) (join (printAll (j :: js))) = _
      rw [ih (done ++ [blank i]) (fun k hk => hl k (List.mem_cons_of_mem _ hk)) j rfl]
      rw [List.append_assoc]
      rfl

theorem inList_read (names : Names) (x : Expr) (s : List Frame) (items : List Expr) (hl : ∀ i ∈ items, Leaf names i) :
    feedAll names (.inList x s) (join (printAll items) ++ [.closeList]) =
      some (.got (.node fresh .isIn [x, .node fresh .list (blankAll items)]) s) := by
  cases items with
  | nil => rfl
  | cons i is =>
    obtain ⟨t, h1, h2, h3⟩ := blank_leaf (hl i (List.mem_cons_self ..))
    have hstep : feed names (.inList x s) t = some (.afterItem x [blank i] s) := by
      have : feed names (.inList x s) t = (item names t).map fun i => .afterItem x [i] s := by
        cases t <;> first | rfl | exact absurd rfl h3
      rw [this, h2]
      rfl
    cases is with
    | nil =>
      show feedAll names (.inList x s) (print i ++ [.closeList]) = _
      rw [h1]
      show (feed names (.inList x s) t).bind _ = _
      rw [hstep]
      rfl
    | cons j js =>
      show feedAll names (.inList x s) ((print i ++ .comma :: join (printAll (j :: js))) ++ [.closeList]) = _
      rw [h1]
      show (feed names (.inList x s) t).bind _ = _
      rw [hstep]
      show feedAll names (.afterComma x [blank i] s) (join (printAll (j :: js)) ++ [.closeList]) = _
      rw [feedAll_append, afterItem_read names x s (j :: js) [blank i] (fun k hk => hl k (List.mem_cons_of_mem _ hk)) j rfl]
      rfl

/-! ## Expressions -/

/-- Priorities an expression is complete for. -/
def bound : Expr → Nat
  | .literal _ v => if negative v then 5 else 7
  | .var _ _ _ => 7
  | .node _ op _ => if precedence op ≤ 5 then precedence op else if precedence op = 6 then 5 else 7

/-- An expression read on its own. -/
def Alone (names : Names) (e : Expr) : Prop :=
  ∀ s, (∀ f ∈ s, Known f) → Unmoved (level e) s → ∃ x s', feedAll names (.want s) (print e) = some (.got x s') ∧
    (∀ f ∈ s', Known f) ∧ ∀ q ≤ bound e, reduceBefore q x s' = reduceBefore q (regroup none e) s

/-- An expression read after an operand and an operator of no higher precedence. -/
def After (names : Names) (e : Expr) : Prop :=
  ∀ s l op, (∀ f ∈ s, Known f) → op ∈ infixes → precedence op ≤ level e → Unmoved (precedence op) s →
    ∃ x s', feedAll names (.want (.between l op :: s)) (print e) = some (.got x s') ∧
    (∀ f ∈ s', Known f) ∧ ∀ q ≤ precedence op, reduceBefore q x s' = reduceBefore q (regroup (some (l, op)) e) s

theorem reduce_between {op : Op} (h : op ∈ infixes) {q : Nat} (hq : q ≤ precedence op) (x l : Expr) (s : List Frame) :
    reduceBefore q x (.between l op :: s) = reduceBefore q (.node fresh op [l, x]) s := by
  rw [reduceBefore, reduces_infix h, if_pos (by simpa using hq)]

theorem bound_ge {names : Names} {e : Expr} (h : Legible names e) {p : Nat} (hp : p ≤ 5) (hl : p ≤ level e) : p ≤ bound e := by
  cases h with
  | leaf h =>
    cases h with
    | literal _ => show p ≤ if _ then 5 else 7; split <;> omega
    | var _ _ => show p ≤ 7; omega
  | before hop _ =>
    have h6 := (prefix_facts _ hop).2.2.1
    show p ≤ if _ then _ else _
    rw [h6]
    exact hp
  | between hop _ _ =>
    have h5 := (infix_facts _ hop).2.2.1
    show p ≤ if _ then _ else _
    rw [if_pos h5]
    exact hl
  | within _ _ _ => show p ≤ 7; omega

/-- A parenthesised expression. -/
theorem paren_read {names : Names} {e : Expr} (h : Alone names e) (s : List Frame) (hs : ∀ f ∈ s, Known f) :
    feedAll names (.want s) (.open :: print e ++ [.close]) = some (.got (regroup none e) s) := by
  obtain ⟨x, s', h1, h2, h3⟩ := h (.paren :: s) (known_cons trivial hs) (unmoved_paren _ s)
  show feedAll names (.want (.paren :: s)) (print e ++ [.close]) = _
  rw [feedAll_append, h1]
  show (feed names (.got x s') .close).bind _ = _
  show (match reduceAll x s' with | (x, .paren :: s) => some (State.got x s) | _ => none).bind _ = _
  rw [reduceAll_eq s' x h2, h3 0 (Nat.zero_le _)]
  rfl

/-- An operand, parenthesised if its precedence is lower, with nothing to its left. -/
theorem operand_alone {names : Names} {e : Expr} (he : Legible names e) (h : Alone names e) {p : Nat} (hp : p ≤ 5) (s : List Frame)
    (hs : ∀ f ∈ s, Known f) (hu : Unmoved p s) :
    ∃ x s', feedAll names (.want s) (wrap p e (print e)) = some (.got x s') ∧ (∀ f ∈ s', Known f) ∧
      reduceBefore p x s' = (regroup none e, s) := by
  by_cases hw : level e < p
  · rw [wrap, if_pos hw]
    exact ⟨_, _, paren_read h s hs, hs, hu _⟩
  · rw [wrap, if_neg hw]
    obtain ⟨x, s', h1, h2, h3⟩ := h s hs (hu.mono (by omega))
    exact ⟨x, s', h1, h2, (h3 p (bound_ge he hp (by omega))).trans (hu _)⟩

/-- An operand, parenthesised if its precedence is lower, after an operand and an operator. -/
theorem operand_after {names : Names} {e : Expr} (he : Legible names e) (ha : Alone names e) (h : After names e) {op : Op}
    (hop : op ∈ infixes) (l : Expr) (s : List Frame) (hs : ∀ f ∈ s, Known f) (hu : Unmoved (precedence op) s) :
    ∃ x s', feedAll names (.want (.between l op :: s)) (wrap (precedence op) e (print e)) = some (.got x s') ∧ (∀ f ∈ s', Known f) ∧
      ∀ q ≤ precedence op, reduceBefore q x s' = reduceBefore q (regroup (some (l, op)) e) s := by
  by_cases hw : level e < precedence op
  · rw [wrap, if_pos hw]
    refine ⟨_, _, paren_read ha (.between l op :: s) (known_cons hop hs), known_cons hop hs, ?_⟩
    intro q hq
    rw [reduce_between hop hq, regroup_apart he (by omega)]
  · rw [wrap, if_neg hw]
    exact h s l op hs hop (by omega) hu

theorem got_infix {names : Names} {op : Op} (h : op ∈ infixes) (x : Expr) (s : List Frame) :
    feed names (.got x s) (.symbol (symbol op)) =
      some (.want (.between (reduceBefore (precedence op) x s).1 op :: (reduceBefore (precedence op) x s).2)) := by
  obtain ⟨h1, -⟩ := infix_facts op h
  show (match infixes.find? fun o => symbol o = symbol op with | some op => _ | none => _) = _
  rw [h1]

theorem want_prefix {names : Names} {op : Op} (h : op ∈ prefixes) (s : List Frame) :
    feed names (.want s) (.symbol (symbol op)) = some (.want (.before op :: s)) := by
  obtain ⟨h1, -⟩ := prefix_facts op h
  show (prefixes.find? fun o => symbol o = symbol op).map _ = _
  rw [h1]
  rfl

theorem got_symbol (names : Names) (x : Expr) (s : List Frame) (t : String) :
    feed names (.got x s) (.symbol t) =
      match infixes.find? fun op => symbol op = t with
      | some op => some (.want (.between (reduceBefore (precedence op) x s).1 op :: (reduceBefore (precedence op) x s).2))
      | none =>
        if t = symbol .isIn then some (.afterIn (reduceBefore (precedence .isIn) x s).1 (reduceBefore (precedence .isIn) x s).2)
        else none := rfl

theorem got_in {names : Names} (x : Expr) (s : List Frame) :
    feed names (.got x s) (.symbol (symbol .isIn)) = some (.afterIn (reduceBefore 7 x s).1 (reduceBefore 7 x s).2) := by
  rw [got_symbol, in_facts]
  exact if_pos rfl

/-- What was read alone can be read after an operand of lower precedence. -/
theorem after_of_alone {names : Names} {e : Expr} (he : Legible names e) (h : Alone names e)
    (s : List Frame) (l : Expr) (op : Op) (hs : ∀ f ∈ s, Known f) (hop : op ∈ infixes) (hl : precedence op < level e) :
    ∃ x s', feedAll names (.want (.between l op :: s)) (print e) = some (.got x s') ∧
    (∀ f ∈ s', Known f) ∧ ∀ q ≤ precedence op, reduceBefore q x s' = reduceBefore q (regroup (some (l, op)) e) s := by
  obtain ⟨x, s', h1, h2, h3⟩ := h (.between l op :: s) (known_cons hop hs) (unmoved_between (by
    rw [reduces_infix hop]; simpa using hl))
  refine ⟨x, s', h1, h2, ?_⟩
  intro q hq
  have h5 := (infix_facts op hop).2.2.1
  rw [h3 q (by have := bound_ge he (p := precedence op) h5 (by omega); omega), reduce_between hop hq,
    regroup_apart he (by omega)]

/-- Every legible expression is read as its text is grouped. -/
theorem legible_read {names : Names} {e : Expr} (he : Legible names e) : Alone names e ∧ After names e := by
  induction he with
  | @leaf e hl =>
    have ha : Alone names e := by
      intro s hs _
      cases hl with
      | @literal o v hv =>
        have hp : print (.literal o v) = [.value v] := by rw [print, literalText_eq hv]
        rw [hp]
        by_cases hn : negative v = true
        · refine ⟨.literal fresh (unsigned v), .before .negative :: s, ?_, known_cons (by decide : Op.negative ∈ prefixes) hs, ?_⟩
          · show (if negative v then _ else _ : Option State).bind _ = _
            rw [if_pos hn]
            rfl
          · intro q hq
            have hb : bound (.literal o v) = 5 := by show (if negative v then 5 else 7) = 5; rw [if_pos hn]
            rw [hb] at hq
            rw [reduceBefore, reduces_prefix (by decide), if_pos (by simpa using hq)]
            simp only [regroup, hn, if_true, joined]
        · refine ⟨.literal fresh v, s, ?_, hs, ?_⟩
          · show (if negative v then _ else _ : Option State).bind _ = _
            rw [if_neg hn]
            rfl
          · intro q _
            simp only [regroup, hn, joined]
            rfl
      | @var o h p hi hn =>
        have hp : print (.var o h p) = [.name p.name] := by rw [print, (identifier_iff _).mpr hi]; rfl
        rw [hp]
        refine ⟨.var fresh h p, s, ?_, hs, ?_⟩
        · show ((names p.name).map _).bind _ = _
          rw [hn]
          rfl
        · intro q _
          simp only [regroup, joined]
    refine ⟨ha, ?_⟩
    intro s l op hs hop _ _
    have h5 := (infix_facts op hop).2.2.1
    exact after_of_alone (.leaf hl) ha s l op hs hop (by
      cases hl with
      | literal _ => show precedence op < 9; omega
      | var _ _ => show precedence op < 9; omega)
  | @before o op a hop hla ih =>
    have h6 := (prefix_facts op hop).2.2.1
    have ha : Alone names (.node o op [a]) := by
      intro s hs _
      have hgoal : ∃ x s', feedAll names (.want (.before op :: s)) (wrap (precedence op) a (print a)) = some (.got x s') ∧
          (∀ f ∈ s', Known f) ∧ ∀ q ≤ 5, reduceBefore q x s' = reduceBefore q (regroup none a) (.before op :: s) := by
        by_cases hw : level a < precedence op
        · rw [wrap, if_pos hw]
          exact ⟨_, _, paren_read ih.1 (.before op :: s) (known_cons hop hs), known_cons hop hs, fun _ _ => rfl⟩
        · rw [wrap, if_neg hw]
          obtain ⟨x, s', h1, h2, h3⟩ := ih.1 (.before op :: s) (known_cons hop hs) (unmoved_before (by
            rw [reduces_prefix hop]
            simp only [decide_eq_false_iff_not]
            omega))
          exact ⟨x, s', h1, h2, fun q hq => h3 q (Nat.le_trans hq (bound_ge hla (Nat.le_refl 5) (by omega)))⟩
      obtain ⟨x, s', h1, h2, h3⟩ := hgoal
      refine ⟨x, s', ?_, h2, ?_⟩
      · rw [print_before hop]
        show (feed names (.want s) (.symbol (symbol op))).bind _ = _
        rw [want_prefix hop]
        exact h1
      · intro q hq
        have hb : bound (.node o op [a]) = 5 := by
          show (if precedence op ≤ 5 then precedence op else if precedence op = 6 then 5 else 7) = 5
          rw [h6]; rfl
        rw [hb] at hq
        rw [h3 q hq, reduceBefore, reduces_prefix hop, if_pos (by simpa using hq), regroup_before hop]
        rfl
    refine ⟨ha, ?_⟩
    intro s l op' hs hop' _ _
    have h5 := (infix_facts op' hop').2.2.1
    exact after_of_alone (.before hop hla) ha s l op' hs hop' (by show precedence op' < precedence op; omega)
  | @between o op a b hop hla hlb iha ihb =>
    have h5 := (infix_facts op hop).2.2.1
    have hb : bound (.node o op [a, b]) = precedence op := by
      show (if precedence op ≤ 5 then precedence op else if precedence op = 6 then 5 else 7) = precedence op
      rw [if_pos h5]
    have ha : Alone names (.node o op [a, b]) := by
      intro s hs hu
      obtain ⟨x, s', h1, h2, h3⟩ := operand_alone hla iha.1 h5 s hs hu
      obtain ⟨y, s'', k1, k2, k3⟩ := operand_after hlb ihb.1 ihb.2 hop (regroup none a) s hs hu
      refine ⟨y, s'', ?_, k2, ?_⟩
      · rw [print_between hop, feedAll_append, h1]
        show (feed names (.got x s') (.symbol (symbol op))).bind _ = _
        rw [got_infix hop, h3]
        exact k1
      · intro q hq
        rw [hb] at hq
        rw [k3 q hq, regroup_between_none hop]
    refine ⟨ha, ?_⟩
    intro s l op' hs hop' hle hu
    by_cases heq : precedence op' = precedence op
    · obtain ⟨x, s', h1, h2, h3⟩ := operand_after hla iha.1 iha.2 hop' l s hs hu
      obtain ⟨y, s'', k1, k2, k3⟩ := operand_after hlb ihb.1 ihb.2 hop (regroup (some (l, op')) a) s hs (heq ▸ hu)
      refine ⟨y, s'', ?_, k2, ?_⟩
      · rw [print_between hop, feedAll_append, ← heq, h1]
        show (feed names (.got x s') (.symbol (symbol op))).bind _ = _
        rw [got_infix hop, ← heq, h3 _ (Nat.le_refl _), hu, heq]
        exact k1
      · intro q hq
        rw [k3 q (by omega), regroup_between_some hop heq]
    · exact after_of_alone (.between hop hla hlb) ha s l op' hs hop' (by
        have : precedence op' ≤ precedence op := hle
        show precedence op' < precedence op
        omega)
  | @within o a o' items hla hsg hit ih =>
    have ha : Alone names (.node o .isIn [a, .node o' .list items]) := by
      intro s hs hu
      have hgoal : ∃ x s', feedAll names (.want s) (wrap 7 a (print a)) = some (.got x s') ∧ (∀ f ∈ s', Known f) ∧
          reduceBefore 7 x s' = (regroup none a, s) := by
        by_cases hw : level a < 7
        · rw [wrap, if_pos hw]
          exact ⟨_, _, paren_read ih.1 s hs, hs, hu _⟩
        · rw [wrap, if_neg hw]
          obtain ⟨x, s', h1, h2, h3⟩ := ih.1 s hs (hu.mono (by show 7 ≤ level a; omega))
          refine ⟨x, s', h1, h2, (h3 7 ?_).trans (hu _)⟩
          cases hla with
          | leaf hl =>
            cases hl with
            | literal _ =>
              show 7 ≤ if _ then 5 else 7
              rw [if_neg (show ¬ negative _ = true from hsg)]
              exact Nat.le_refl 7
            | var _ _ => exact Nat.le_refl 7
          | before hop _ =>
            exfalso
            exact hw (by show precedence _ < 7; rw [(prefix_facts _ hop).2.2.1]; decide)
          | between hop _ _ =>
            exfalso
            have := (infix_facts _ hop).2.2.1
            exact hw (by show precedence _ < 7; omega)
          | within _ _ _ => exact Nat.le_refl 7
      obtain ⟨x, s', h1, h2, h3⟩ := hgoal
      refine ⟨.node fresh .isIn [regroup none a, .node fresh .list (blankAll items)], s, ?_, hs, ?_⟩
      · rw [print_within, feedAll_append, h1]
        rw [Option.bind_some, feedAll, got_in, h3, Option.bind_some]
        exact inList_read names _ s items hit
      · intro q _
        rw [regroup_within]
        rfl
    refine ⟨ha, ?_⟩
    intro s l op' hs hop' _ _
    have h5 := (infix_facts op' hop').2.2.1
    exact after_of_alone (.within hla hsg hit) ha s l op' hs hop' (by show precedence op' < 7; omega)

/-- The text of a legible expression is read as it is grouped. -/
theorem parse_print {names : Names} {e : Expr} (he : Legible names e) : parse names (print e) = some (regroup none e) := by
  obtain ⟨x, s', h1, h2, h3⟩ := (legible_read he).1 [] (by simp) (unmoved_nil _)
  unfold parse
  rw [h1]
  show (match reduceAll x s' with | (x, []) => some x | _ => none) = _
  rw [reduceAll_eq s' x h2, h3 0 (Nat.zero_le _)]
  rfl

/-! ## Meaning -/

theorem blankAll_map (es : List Expr) : blankAll es = es.map blank := by
  induction es with
  | nil => rfl
  | cons e es ih => rw [blankAll, ih]; rfl

theorem param_blank (e : Expr) : (blank e).param? = e.param? := by
  cases e <;> rfl

theorem params_blank (es : List Expr) : (blankAll es).map Expr.param? = es.map Expr.param? := by
  induction es with
  | nil => rfl
  | cons e es ih => rw [blankAll, List.map_cons, List.map_cons, ih, param_blank]

mutual
theorem collect_blank : ∀ e : Expr, (blank e).collect = e.collect
  | .literal _ _ => rfl
  | .var _ _ _ => rfl
  | .node _ _ args => by rw [blank, Expr.collect, Expr.collect, collectAll_blank args]

theorem collectAll_blank : ∀ es : List Expr, collectAll (blankAll es) = collectAll es
  | [] => rfl
  | e :: es => by rw [blankAll, collectAll, collectAll, collect_blank e, collectAll_blank es]
end

section
variable (ops : FloatOps) (jen : Bytes → BitVec 32) (little : Bool) (env : Env)

mutual
theorem eval_blank : ∀ e : Expr, eval ops jen little env (blank e) = eval ops jen little env e
  | .literal _ _ => rfl
  | .var _ _ _ => rfl
  | .node _ op args => by
    rw [blank, eval, eval, params_blank, evalAll_blank args, evalSecond_blank args]

theorem evalAll_blank : ∀ es : List Expr, evalAll ops jen little env (blankAll es) = evalAll ops jen little env es
  | [] => rfl
  | e :: es => by rw [blankAll, evalAll, evalAll, eval_blank e, evalAll_blank es]

theorem evalSecond_blank : ∀ es : List Expr, evalSecond ops jen little env (blankAll es) = evalSecond ops jen little env es
  | [] => rfl
  | e :: es => by rw [blankAll, evalSecond, evalSecond, evalHeadItems_blank es]

theorem evalHeadItems_blank : ∀ es : List Expr,
    evalHeadItems ops jen little env (blankAll es) = evalHeadItems ops jen little env es
  | [] => rfl
  | e :: es => by rw [blankAll, evalHeadItems, evalHeadItems, evalItems_blank e]

theorem evalItems_blank : ∀ e : Expr, evalItems ops jen little env (blank e) = evalItems ops jen little env e
  | .literal _ _ => rfl
  | .var _ _ _ => rfl
  | .node _ op args => by rw [blank, evalItems, evalItems, evalAll_blank args]
end

end

theorem neg_neg_float (f : F64) : F64.neg (F64.neg f) = f := by
  unfold F64.neg
  rw [BitVec.xor_assoc, BitVec.xor_self, BitVec.xor_zero]

section
variable (ops : FloatOps) (jen : Bytes → BitVec 32) (little : Bool) (env : Env)

/-- The sign of a number taken for an operator gives the number. -/
theorem eval_unsigned {v : Value} (h : negative v = true) (hm : v ≠ .int 0x8000000000000000#64) (o o' : ObjMeta) :
    eval ops jen little env (.node o .negative [.literal o' (unsigned v)]) = .ok v := by
  cases v with
  | int i =>
    have hi : i ≠ BitVec.intMin 64 := fun h => hm (by rw [h]; rfl)
    show intResult (-(-i).toInt) = _
    rw [BitVec.toInt_neg_of_ne_intMin hi, Int.neg_neg]
    unfold intResult
    have h1 := BitVec.le_toInt i
    have h2 := BitVec.toInt_lt (x := i)
    rw [if_pos ⟨h1, h2⟩, BitVec.ofInt_toInt]
  | float f =>
    show Out.ok (Value.float (F64.neg (F64.neg f))) = _
    rw [neg_neg_float]
  | none => cases h
  | bool _ => cases h
  | str _ => cases h
  | inactive => cases h
  | obj _ => cases h

theorem eval_binary (o : ObjMeta) (op : Op) {a a' b b' : Expr} (h : op ≠ .isIn)
    (ha : eval ops jen little env a' = eval ops jen little env a) (hb : eval ops jen little env b' = eval ops jen little env b)
    (hpa : a'.param? = a.param?) (hpb : b'.param? = b.param?) (o' : ObjMeta) :
    eval ops jen little env (.node o op [a', b']) = eval ops jen little env (.node o' op [a, b]) := by
  rw [eval, eval]
  simp only [evalAll, List.map, ha, hb, hpa, hpb]
  cases op <;> first | rfl | exact absurd rfl h

theorem eval_unary (o : ObjMeta) (op : Op) {a a' : Expr} (o' : ObjMeta)
    (ha : eval ops jen little env a' = eval ops jen little env a) (hpa : a'.param? = a.param?) :
    eval ops jen little env (.node o op [a']) = eval ops jen little env (.node o' op [a]) := by
  rw [eval, eval]
  simp only [evalAll, List.map, ha, hpa]
  cases op <;> rfl

/-- An expression whose text is grouped as it is means what its text means. -/
theorem eval_regroup {names : Names} {e : Expr} (he : Legible names e) (hu : Upright e) (hm : Moderate e) :
    eval ops jen little env (regroup none e) = eval ops jen little env e ∧ (regroup none e).param? = e.param? ∧
      (regroup none e).collect = e.collect := by
  induction he with
  | leaf hl =>
    cases hl with
    | @literal o v _ =>
      cases hm with
      | literal hv =>
        simp only [regroup, joined]
        by_cases hn : negative v = true
        · rw [if_pos hn]
          exact ⟨eval_unsigned ops jen little env hn hv _ _, rfl, rfl⟩
        · rw [if_neg hn]
          exact ⟨rfl, rfl, rfl⟩
    | var _ _ =>
      simp only [regroup, joined]
      exact ⟨rfl, rfl, rfl⟩
  | @before o op a hop _ ih =>
    have h' : Upright a ∧ Moderate a := by
      cases hu with
      | before _ hu =>
        cases hm with
        | before _ hm => exact ⟨hu, hm⟩
    obtain ⟨h1, h2, h3⟩ := ih h'.1 h'.2
    rw [regroup_before hop]
    refine ⟨eval_unary ops jen little env _ op _ h1 h2, rfl, ?_⟩
    show collectAll [_] = collectAll [_]
    simp only [collectAll, h3]
  | @between o op a b hop _ hlb iha ihb =>
    have h' : Upright a ∧ Upright b ∧ level b ≠ precedence op ∧ Moderate a ∧ Moderate b := by
      cases hu with
      | between _ h1 h2 h3 =>
        cases hm with
        | between _ h4 h5 => exact ⟨h1, h2, h3, h4, h5⟩
        | within _ => exact absurd hop (by decide)
      | within _ => exact absurd hop (by decide)
    obtain ⟨u1, u2, u3, m1, m2⟩ := h'
    obtain ⟨h1, h2, h3⟩ := iha u1 m1
    obtain ⟨k1, k2, k3⟩ := ihb u2 m2
    rw [regroup_between_none hop, regroup_apart hlb u3]
    refine ⟨eval_binary ops jen little env _ op (infix_facts op hop).2.2.2.2 h1 k1 h2 k2 _, rfl, ?_⟩
    show collectAll [_, _] = collectAll [_, _]
    simp only [collectAll, h3, k3]
  | @within o a o' items _ _ _ ih =>
    have h' : Upright a ∧ Moderate a := by
      cases hu with
      | between hop _ _ _ => exact absurd hop (by decide)
      | within h1 =>
        cases hm with
        | between hop _ _ => exact absurd hop (by decide)
        | within h2 => exact ⟨h1, h2⟩
    obtain ⟨h1, h2, h3⟩ := ih h'.1 h'.2
    rw [regroup_within]
    refine ⟨?_, rfl, ?_⟩
    · show eval ops jen little env (.node fresh .isIn [regroup none a, blank (.node o' .list items)]) = _
      rw [eval, eval]
      simp only [evalAll, List.map, evalSecond, evalHeadItems, h1, h2, eval_blank, evalItems_blank, param_blank]
    · show collectAll [_, _] = collectAll [_, _]
      simp only [collectAll, h3]
      rw [collect_blank]

end

/-- Without numbers that begin with a sign, it is the same expression. -/
theorem regroup_same {names : Names} {e : Expr} (he : Legible names e) (hu : Upright e) (hs : Unsigned e) : regroup none e = blank e := by
  induction he with
  | leaf hl =>
    cases hl with
    | literal _ =>
      cases hs with
      | literal hn =>
        simp only [regroup, joined, hn, blank]
        rfl
    | var _ _ => simp only [regroup, joined, blank]
  | @before o op a hop _ ih =>
    have h' : Upright a ∧ Unsigned a := by
      cases hu with
      | before _ hu =>
        cases hs with
        | before _ hm => exact ⟨hu, hm⟩
    rw [regroup_before hop, ih h'.1 h'.2]
    rfl
  | @between o op a b hop _ hlb iha ihb =>
    have h' : Upright a ∧ Upright b ∧ level b ≠ precedence op ∧ Unsigned a ∧ Unsigned b := by
      cases hu with
      | between _ h1 h2 h3 =>
        cases hs with
        | between _ h4 h5 => exact ⟨h1, h2, h3, h4, h5⟩
        | within _ => exact absurd hop (by decide)
      | within _ => exact absurd hop (by decide)
    obtain ⟨u1, u2, u3, m1, m2⟩ := h'
    rw [regroup_between_none hop, regroup_apart hlb u3, iha u1 m1, ihb u2 m2]
    rfl
  | @within o a o' items _ _ _ ih =>
    have h' : Upright a ∧ Unsigned a := by
      cases hu with
      | between hop _ _ _ => exact absurd hop (by decide)
      | within h1 =>
        cases hs with
        | between hop _ _ => exact absurd hop (by decide)
        | within h2 => exact ⟨h1, h2⟩
    rw [regroup_within, ih h'.1 h'.2]
    rfl

/-! ## Names -/

/-- A parser that knows no name reads no text with a name. -/
theorem feed_name (st : State) (n : Bytes) : feed noNames st (.name n) = none := by
  cases st <;> rfl

theorem feedAll_name (n : Bytes) : ∀ (ts : List Tok) (st : State), .name n ∈ ts → feedAll noNames st ts = none := by
  intro ts
  induction ts with
  | nil => intro st h; cases h
  | cons t ts ih =>
    intro st h
    rcases List.mem_cons.mp h with h | h
    · rw [← h, feedAll, feed_name]
      rfl
    · rw [feedAll]
      cases feed noNames st t with
      | none => rfl
      | some st' => exact ih st' h

theorem mem_wrap {t : Tok} {p : Nat} {e : Expr} {ts : List Tok} (h : t ∈ ts) : t ∈ wrap p e ts := by
  unfold wrap
  split
  · simp [h]
  · exact h

theorem join_mem {t : Tok} : ∀ {ts : List (List Tok)} {x : List Tok}, x ∈ ts → t ∈ x → t ∈ join ts := by
  intro ts
  induction ts with
  | nil => intro x h; cases h
  | cons y ys ih =>
    intro x h ht
    cases ys with
    | nil =>
      rcases List.mem_cons.mp h with rfl | h
      · exact ht
      · cases h
    | cons z zs =>
      show t ∈ y ++ .comma :: join (z :: zs)
      rcases List.mem_cons.mp h with rfl | h
      · exact List.mem_append_left _ ht
      · exact List.mem_append_right _ (List.mem_cons_of_mem _ (ih h ht))

theorem printAll_map (es : List Expr) : printAll es = es.map print := by
  induction es with
  | nil => rfl
  | cons e es ih => rw [printAll, ih]; rfl

theorem leaf_name {names : Names} {e : Expr} (hl : Leaf names e) {h : BitVec 64} (ho : CCS.Spec.Occurs h e) : ∃ n, .name n ∈ print e := by
  cases hl with
  | literal _ => cases ho
  | @var o h' p hi _ =>
    refine ⟨p.name, ?_⟩
    rw [print, (identifier_iff _).mpr hi]
    exact List.mem_cons_self ..

/-- A variable is printed. -/
theorem occurs_name {names : Names} {e : Expr} (he : Legible names e) {h : BitVec 64} (ho : CCS.Spec.Occurs h e) :
    ∃ n, .name n ∈ print e := by
  induction he with
  | leaf hl => exact leaf_name hl ho
  | @before o op a hop _ ih =>
    cases ho with
    | inside hm ho =>
      obtain rfl := List.mem_singleton.mp hm
      obtain ⟨n, hn⟩ := ih ho
      refine ⟨n, ?_⟩
      rw [print_before hop]
      exact List.mem_cons_of_mem _ (mem_wrap hn)
  | @between o op a b hop _ hlb iha ihb =>
    cases ho with
    | inside hm ho =>
      rw [print_between hop]
      rcases List.mem_cons.mp hm with rfl | hm
      · obtain ⟨n, hn⟩ := iha ho
        exact ⟨n, List.mem_append_left _ (mem_wrap hn)⟩
      · obtain rfl := List.mem_singleton.mp hm
        obtain ⟨n, hn⟩ := ihb ho
        exact ⟨n, List.mem_append_right _ (List.mem_cons_of_mem _ (mem_wrap hn))⟩
  | @within o a o' items _ _ hit ih =>
    cases ho with
    | inside hm ho =>
      rw [print_within]
      rcases List.mem_cons.mp hm with rfl | hm
      · obtain ⟨n, hn⟩ := ih ho
        exact ⟨n, List.mem_append_left _ (mem_wrap hn)⟩
      · obtain rfl := List.mem_singleton.mp hm
        cases ho with
        | @inside _ _ _ i hi ho =>
          obtain ⟨n, hn⟩ := leaf_name (hit i hi) ho
          refine ⟨n, List.mem_append_right _ (List.mem_cons_of_mem _ (List.mem_cons_of_mem _ (List.mem_append_left _ ?_)))⟩
          rw [printAll_map]
          exact join_mem (List.mem_map.mpr ⟨i, hi, rfl⟩) hn

end CCS.Text
