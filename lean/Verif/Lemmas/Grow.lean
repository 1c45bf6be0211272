import Verif.Model.Channel

/-!
# Readers and longer inputs

A reader that succeeds on some bytes succeeds likewise on more of them, and leaves what was added.
-/

namespace CCS

/-- What `r` reads from some bytes, `r'` reads from those bytes and more; and where `r'` succeeds, `r` on fewer bytes succeeds likewise,
or runs out of data. -/
structure Grows {α : Type} (r r' : Rd α) : Prop where
  more : ∀ p q x rest, r p = .ok (x, rest) → r' (p ++ q) = .ok (x, rest ++ q)
  less : ∀ p q x rest, r' (p ++ q) = .ok (x, rest) →
    (∃ rest', r p = .ok (x, rest') ∧ rest = rest' ++ q) ∨ r p = .err .notEnoughData ∨ r p = .ub

namespace Grows

theorem pure {α : Type} (a : α) : Grows (pure a : Rd α) (Pure.pure a) := by
  constructor
  · intro p q x rest h
    cases h
    rfl
  · intro p q x rest h
    cases h
    exact .inl ⟨p, rfl, rfl⟩

theorem fail {α : Type} (e : Err) : Grows (Rd.fail e : Rd α) (Rd.fail e) := by
  constructor
  · intro p q x rest h
    cases h
  · intro p q x rest h
    cases h

theorem undef {α : Type} (r : Rd α) : Grows Rd.undef r := by
  constructor
  · intro p q x rest h
    cases h
  · intro p q x rest _
    exact .inr (.inr rfl)

theorem lift {α : Type} (o : Out α) : Grows (Rd.lift o) (Rd.lift o) := by
  constructor
  · intro p q x rest h
    cases o with
    | ok a => cases h; rfl
    | err e => cases h
    | ub => cases h
  · intro p q x rest h
    cases o with
    | ok a => cases h; exact .inl ⟨p, rfl, rfl⟩
    | err e => cases h
    | ub => cases h

theorem bind {α β : Type} {r r' : Rd α} {f f' : α → Rd β} (hr : Grows r r') (hf : ∀ a, Grows (f a) (f' a)) :
    Grows (r >>= f) (r' >>= f') := by
  constructor
  · intro p q x rest h
    have h' : Out.bind (r p) (fun y => f y.1 y.2) = .ok (x, rest) := h
    show Out.bind (r' (p ++ q)) (fun y => f' y.1 y.2) = .ok (x, rest ++ q)
    cases hp : r p with
    | err e => rw [hp] at h'; cases h'
    | ub => rw [hp] at h'; cases h'
    | ok y =>
      rw [hp] at h'
      rw [hr.more p q y.1 y.2 hp]
      exact (hf y.1).more y.2 q x rest h'
  · intro p q x rest h
    have h' : Out.bind (r' (p ++ q)) (fun y => f' y.1 y.2) = .ok (x, rest) := h
    show (∃ rest', Out.bind (r p) (fun y => f y.1 y.2) = .ok (x, rest') ∧ rest = rest' ++ q) ∨
      Out.bind (r p) (fun y => f y.1 y.2) = .err .notEnoughData ∨ Out.bind (r p) (fun y => f y.1 y.2) = .ub
    cases hp : r' (p ++ q) with
    | err e => rw [hp] at h'; cases h'
    | ub => rw [hp] at h'; cases h'
    | ok y =>
      rw [hp] at h'
      rcases hr.less p q y.1 y.2 hp with ⟨m, hm, hy⟩ | hm | hm
      · rw [hm]
        have h2 : f' y.1 y.2 = .ok (x, rest) := h'
        rw [hy] at h2
        exact (hf y.1).less m q x rest h2
      · rw [hm]; exact .inr (.inl rfl)
      · rw [hm]; exact .inr (.inr rfl)

theorem peek {α : Type} {r r' : Rd α} (hr : Grows r r') : Grows (Rd.peek r) (Rd.peek r') := by
  constructor
  · intro p q x rest h
    have h' : Out.bind (r p) (fun y => Out.ok (y.1, p)) = .ok (x, rest) := h
    show Out.bind (r' (p ++ q)) (fun y => Out.ok (y.1, p ++ q)) = .ok (x, rest ++ q)
    cases hp : r p with
    | err e => rw [hp] at h'; cases h'
    | ub => rw [hp] at h'; cases h'
    | ok y =>
      rw [hp] at h'
      rw [hr.more p q y.1 y.2 hp]
      cases h'
      rfl
  · intro p q x rest h
    have h' : Out.bind (r' (p ++ q)) (fun y => Out.ok (y.1, p ++ q)) = .ok (x, rest) := h
    show (∃ rest', Out.bind (r p) (fun y => Out.ok (y.1, p)) = .ok (x, rest') ∧ rest = rest' ++ q) ∨
      Out.bind (r p) (fun y => Out.ok (y.1, p)) = .err .notEnoughData ∨ Out.bind (r p) (fun y => Out.ok (y.1, p)) = .ub
    cases hp : r' (p ++ q) with
    | err e => rw [hp] at h'; cases h'
    | ub => rw [hp] at h'; cases h'
    | ok y =>
      rw [hp] at h'
      cases h'
      rcases hr.less p q y.1 y.2 hp with ⟨m, hm, -⟩ | hm | hm
      · rw [hm]; exact .inl ⟨p, rfl, rfl⟩
      · rw [hm]; exact .inr (.inl rfl)
      · rw [hm]; exact .inr (.inr rfl)

theorem ite {α : Type} {c : Prop} [Decidable c] {r r' s s' : Rd α} (hr : Grows r r') (hs : Grows s s') :
    Grows (if c then r else s) (if c then r' else s') := by
  by_cases h : c
  · rw [if_pos h, if_pos h]; exact hr
  · rw [if_neg h, if_neg h]; exact hs

theorem times {α : Type} {r r' : Rd α} (hr : Grows r r') : ∀ n, Grows (r.times n) (r'.times n)
  | 0 => Grows.pure _
  | n + 1 => bind hr fun _ => bind (times hr n) fun _ => Grows.pure _

theorem fill {α : Type} {r r' : Rd α} (hr : Grows r r') (size room : Nat) : ∀ n i, Grows (r.fill size room n i) (r'.fill size room n i)
  | 0, _ => Grows.pure _
  | n + 1, i => bind hr fun _ => ite (undef _) (bind (fill hr size room n (i + 1)) fun _ => Grows.pure _)

/-- A reader of `n` bytes that gives `o` when there are not enough. -/
theorem taken {α : Type} (n : Nat) (f : Bytes → α) (o : Out (α × Bytes)) (ho : o = .err .notEnoughData ∨ o = .ub) :
    Grows (fun bs => if bs.length < n then o else .ok (f (bs.take n), bs.drop n) : Rd α)
      (fun bs => if bs.length < n then o else .ok (f (bs.take n), bs.drop n)) := by
  constructor
  · intro p q x rest h
    change (if p.length < n then o else .ok (f (p.take n), p.drop n)) = _ at h
    show (if (p ++ q).length < n then o else .ok (f ((p ++ q).take n), (p ++ q).drop n)) = _
    by_cases hn : p.length < n
    · rw [if_pos hn] at h
      rcases ho with rfl | rfl <;> cases h
    · rw [if_neg hn] at h
      rw [if_neg (by rw [List.length_append]; omega)]
      cases h
      rw [List.take_append_of_le_length (by omega), List.drop_append_of_le_length (by omega)]
  · intro p q x rest h
    change (if (p ++ q).length < n then o else .ok (f ((p ++ q).take n), (p ++ q).drop n)) = _ at h
    show (∃ rest', (if p.length < n then o else .ok (f (p.take n), p.drop n)) = _ ∧ _) ∨
      (if p.length < n then o else .ok (f (p.take n), p.drop n)) = _ ∨ (if p.length < n then o else .ok (f (p.take n), p.drop n)) = _
    by_cases hn : p.length < n
    · rw [if_pos hn]
      exact .inr ho
    · rw [if_neg hn]
      rw [if_neg (by rw [List.length_append]; omega)] at h
      cases h
      rw [List.take_append_of_le_length (by omega), List.drop_append_of_le_length (by omega)]
      exact .inl ⟨_, rfl, rfl⟩

theorem fixed {α : Type} (n : Nat) (f : Bytes → α) : Grows (deFixed n f) (deFixed n f) := taken n f _ (.inl rfl)

theorem raw (n : Nat) : Grows (deRaw n) (deRaw n) := taken n id _ (.inl rfl)

theorem unchecked (n : Nat) : Grows (deUnchecked n) (deUnchecked n) := taken n id _ (.inr rfl)

theorem lebLoop {w : Nat} : ∀ (p : Bytes) (q : Bytes) (v : BitVec w) (s : Nat) (x : BitVec w) (rest : Bytes),
    (deLebLoop v s p = .ok (x, rest) → deLebLoop v s (p ++ q) = .ok (x, rest ++ q)) ∧
    (deLebLoop v s (p ++ q) = .ok (x, rest) →
      (∃ rest', deLebLoop v s p = .ok (x, rest') ∧ rest = rest' ++ q) ∨ deLebLoop v s p = .err .notEnoughData ∨ deLebLoop v s p = .ub)
  | [], _, _, _, _, _ => ⟨(nomatch ·), fun _ => .inr (.inl rfl)⟩
  | y :: p, q, v, s, x, rest => by
    rw [List.cons_append]
    unfold deLebLoop
    by_cases hs : w ≤ s
    · rw [if_pos hs, if_pos hs]
      exact ⟨(nomatch ·), (nomatch ·)⟩
    · rw [if_neg hs, if_neg hs]
      dsimp only
      by_cases hy : y &&& 0x80#8 ≠ 0#8
      · rw [if_pos hy, if_pos hy]
        exact lebLoop p q _ _ x rest
      · rw [if_neg hy, if_neg hy]
        refine ⟨fun h => ?_, fun h => ?_⟩
        · cases h; rfl
        · cases h; exact .inl ⟨p, rfl, rfl⟩

theorem leb (w : Nat) : Grows (deLeb w) (deLeb w) :=
  ⟨fun p q x rest => (lebLoop p q _ _ x rest).1, fun p q x rest => (lebLoop p q _ _ x rest).2⟩

theorem cString_append : ∀ (p q : Bytes) (s : Bytes),
    (CCS.cString p = .ok s → CCS.cString (p ++ q) = .ok s) ∧
    (CCS.cString (p ++ q) = .ok s → CCS.cString p = .ok s ∨ CCS.cString p = .ub)
  | [], _, _ => ⟨(nomatch ·), fun _ => .inr rfl⟩
  | b :: p, q, s => by
    rw [List.cons_append]
    unfold CCS.cString
    by_cases hb : b = 0#8
    · rw [if_pos hb, if_pos hb]; exact ⟨id, .inl⟩
    · rw [if_neg hb, if_neg hb]
      refine ⟨fun h => ?_, fun h => ?_⟩
      · cases hc : CCS.cString p with
        | err e => rw [hc] at h; cases h
        | ub => rw [hc] at h; cases h
        | ok t =>
          rw [(cString_append p q t).1 hc]
          rw [hc] at h
          exact h
      · cases hc : CCS.cString (p ++ q) with
        | err e => rw [hc] at h; cases h
        | ub => rw [hc] at h; cases h
        | ok t =>
          rw [hc] at h
          rcases (cString_append p q t).2 hc with ht | ht
          · rw [ht]; exact .inl h
          · rw [ht]; exact .inr rfl

theorem cstr (n : Nat) : Grows (deCString n) (deCString n) := by
  constructor
  · intro p q x rest h
    unfold deCString at h ⊢
    by_cases hn : p.length < n
    · rw [if_pos hn] at h; cases h
    · rw [if_neg hn] at h
      rw [if_neg (by rw [List.length_append]; omega)]
      cases hc : CCS.cString p with
      | err e => rw [hc] at h; cases h
      | ub => rw [hc] at h; cases h
      | ok t =>
        rw [(cString_append p q t).1 hc]
        rw [hc] at h
        cases h
        rw [List.drop_append_of_le_length (by omega)]
        rfl
  · intro p q x rest h
    unfold deCString at h ⊢
    by_cases hn : p.length < n
    · rw [if_pos hn]; exact .inr (.inl rfl)
    · rw [if_neg hn]
      rw [if_neg (by rw [List.length_append]; omega)] at h
      cases hc : CCS.cString (p ++ q) with
      | err e => rw [hc] at h; cases h
      | ub => rw [hc] at h; cases h
      | ok t =>
        rw [hc] at h
        cases h
        rcases (cString_append p q _).2 hc with ht | ht
        · rw [ht]
          exact .inl ⟨p.drop n, rfl, List.drop_append_of_le_length (by omega)⟩
        · rw [ht]; exact .inr (.inr rfl)

/-! ## Elementary fields -/

theorem size : Grows deSize deSize := bind (leb _) fun _ => Grows.pure _

theorem enum : Grows deEnum deEnum := leb 32

theorem bool : Grows deBool deBool := leb 32

theorem handle : Grows deHandle deHandle := leb 64

theorem int : Grows deInt deInt := bind (leb _) fun _ => Grows.pure _

theorem result : Grows deResult deResult := bind (leb _) fun _ => Grows.pure _

theorem u64 (little : Bool) : Grows (deU64Fixed little) (deU64Fixed little) := fixed 8 _

theorem string : Grows deString deString := bind size fun _ => cstr _

theorem blob : Grows deBlob deBlob := bind size fun _ => raw _

theorem obj : Grows deObj deObj := bind enum fun _ => bind handle fun _ => Grows.pure _

theorem userData : Grows deUserData deUserData := bind size fun _ => unchecked _

theorem interval (little : Bool) : Grows (deInterval little) (deInterval little) := by
  unfold deInterval
  refine bind enum fun t => bind (ite ?_ ?_) fun _ => bind bool fun _ => bind bool fun _ => Grows.pure _
  · exact bind (u64 _) fun _ => bind (u64 _) fun _ => Grows.pure _
  · exact bind int fun _ => bind int fun _ => Grows.pure _

theorem datum (little : Bool) : Grows (deDatum little) (deDatum little) := by
  unfold deDatum
  refine bind enum fun t => ?_
  generalize t.toNat = n
  split
  · exact Grows.pure _
  · exact Grows.pure _
  · exact bind int fun _ => Grows.pure _
  · exact bind (u64 _) fun _ => Grows.pure _
  · exact bind bool fun _ => Grows.pure _
  · exact bind string fun _ => Grows.pure _
  · exact bind handle fun _ => Grows.pure _
  · exact Grows.fail _

theorem header (little : Bool) : Grows (deHeader little) (deHeader little) := by
  unfold deHeader
  exact bind (raw _) fun _ => bind (lift _) fun _ => bind (u64 _) fun _ => bind (leb _) fun _ => bind (lift _) fun _ => Grows.pure _

theorem memory {α : Type} (little : Bool) {r r' : Rd α} (hr : Grows r r') : Grows (deMemory little r) (deMemory little r') :=
  bind (header little) fun _ => hr

/-! ## Objects -/

theorem rng (little : Bool) (gens : List (Bytes × Bytes)) : Grows (deRng little gens) (deRng little gens) := by
  unfold deRng
  exact bind obj fun _ => bind (lift _) fun _ => bind string fun _ => bind bool fun _ => bind blob fun _ => bind (lift _) fun _ =>
    bind userData fun _ => Grows.pure _

theorem map (jen : Bytes → BitVec 32) (little : Bool) (r : Refs) : Grows (deMap jen little r) (deMap jen little r) := by
  unfold deMap
  refine bind obj fun _ => bind (lift _) fun _ => bind size fun _ => bind (fill ?_ _ _ _ _) fun _ => bind (lift _) fun _ =>
    bind userData fun _ => Grows.pure _
  exact bind (datum _) fun _ => bind (datum _) fun _ => Grows.pure _

theorem paramCommon (little : Bool) : Grows (deParamCommon little) (deParamCommon little) := by
  unfold deParamCommon
  exact bind enum fun _ => bind string fun _ => bind (datum _) fun _ => bind (interval _) fun _ => Grows.pure _

theorem param (ops : FloatOps) (jen : Bytes → BitVec 32) (little : Bool) : Grows (deParam ops jen little) (deParam ops jen little) := by
  have hn : Grows (deNumerical ops little) (deNumerical ops little) := by
    unfold deNumerical deQuantization
    exact bind (paramCommon _) fun _ => bind (ite (u64 _) int) fun _ => lift _
  have hc : Grows (deCategorical jen little) (deCategorical jen little) := by
    unfold deCategorical
    exact bind (paramCommon _) fun _ => bind size fun _ => bind (fill (datum _) _ _ _ _) fun _ => lift _
  have hs : Grows (deStringParam little) (deStringParam little) := bind (paramCommon _) fun _ => Grows.pure _
  unfold deParam
  refine bind obj fun _ => bind (lift _) fun _ => bind (peek enum) fun t => bind ?_ fun _ => bind userData fun _ => Grows.pure _
  unfold deParamBody
  generalize t.toNat = n
  split
  · exact hn
  · exact hc
  · exact hc
  · exact hc
  · exact hs
  · exact Grows.fail _

theorem exprFuel (little : Bool) (m : HandleMap) : ∀ a b, a ≤ b → Grows (deExprFuel little m a) (deExprFuel little m b)
  | 0, _, _ => undef _
  | a + 1, 0, h => absurd h (Nat.not_succ_le_zero a)
  | a + 1, b + 1, h => by
    have sub := exprFuel little m a b (Nat.le_of_succ_le_succ h)
    have hn : Grows deNoNodes deNoNodes := bind enum fun _ => bind size fun _ => ite (Grows.pure _) (undef _)
    unfold deExprFuel
    refine bind obj fun _ => bind (lift _) fun _ => bind (peek enum) fun t => bind ?_ fun _ => bind userData fun _ => Grows.pure _
    unfold deExprBody deLiteral deVariable deGeneral
    refine ite ?_ (ite ?_ (ite (Grows.fail _) ?_))
    · exact bind hn fun _ => bind (datum _) fun _ => lift _
    · exact bind (lift _) fun _ => bind hn fun _ => bind handle fun _ => lift _
    · exact bind enum fun _ => bind size fun _ => bind (times sub _) fun _ => lift _

theorem expr (little : Bool) (m : HandleMap) : Grows (deExpr little m) (deExpr little m) := by
  have key := fun p q : Bytes => exprFuel little m (p.length + 1) ((p ++ q).length + 1) (by rw [List.length_append]; omega)
  exact ⟨fun p q => (key p q).more p q, fun p q => (key p q).less p q⟩

theorem areas (little : Bool) (room : Nat) : ∀ n i, Grows (DistObj.deAreas little room n i) (DistObj.deAreas little room n i)
  | 0, _ => Grows.pure _
  | n + 1, i => bind (u64 _) fun _ => ite (undef _) (bind (areas little room n (i + 1)) fun _ => Grows.pure _)

theorem distFuel {σ : Type} (M : Machine σ) (little : Bool) :
    ∀ a b, a ≤ b → Grows (DistObj.readFuel M little a) (DistObj.readFuel M little b)
  | 0, _, _ => undef _
  | a + 1, 0, h => absurd h (Nat.not_succ_le_zero a)
  | a + 1, b + 1, h => by
    have sub := distFuel M little a b (Nat.le_of_succ_le_succ h)
    have num : ∀ t, Grows (DistObj.deNumeric little t) (DistObj.deNumeric little t) := fun t => ite (u64 _) int
    unfold DistObj.readFuel
    refine bind obj fun _ => bind (lift _) fun _ => bind (peek enum) fun t => bind ?_ fun _ => bind userData fun _ => Grows.pure _
    generalize t.toNat = n
    split
    · unfold DistObj.deUniform
      exact bind enum fun _ => bind enum fun _ => bind enum fun _ => bind (num _) fun _ => bind (num _) fun _ => bind (num _) fun _ =>
        bind (lift _) fun _ => bind (lift _) fun _ => lift _
    · unfold DistObj.deNormal
      exact bind enum fun _ => bind enum fun _ => bind enum fun _ => bind (u64 _) fun _ => bind (u64 _) fun _ => bind (num _) fun _ =>
        bind (lift _) fun _ => bind (lift _) fun _ => lift _
    · unfold DistObj.deRoulette
      exact bind enum fun _ => bind size fun _ => bind (areas _ _ _ _) fun _ => lift _
    · unfold DistObj.deMixture
      refine bind enum fun _ => bind size fun _ => bind (lift _) fun _ => bind (times ?_ _) fun _ => lift _
      exact bind (u64 _) fun _ => bind sub fun _ => Grows.pure _
    · unfold DistObj.deMultivariate
      exact bind enum fun _ => bind size fun _ => bind (lift _) fun _ => bind (times sub _) fun _ => lift _
    · exact Grows.fail _

theorem dist {σ : Type} (M : Machine σ) (little : Bool) : Grows (DistObj.read M little) (DistObj.read M little) := by
  have key := fun p q : Bytes => distFuel M little (p.length + 1) ((p ++ q).length + 1) (by rw [List.length_append]; omega)
  exact ⟨fun p q => (key p q).more p q, fun p q => (key p q).less p q⟩

theorem claim (seen : List (BitVec 64)) : Grows (CCS.claim seen) (CCS.claim seen) :=
  bind (peek obj) fun _ => ite (undef _) (Grows.pure _)

theorem params (ops : FloatOps) (jen : Bytes → BitVec 32) (little : Bool) :
    ∀ n seen, Grows (deParams ops jen little n seen) (deParams ops jen little n seen)
  | 0, _ => Grows.pure _
  | n + 1, _ => bind (claim _) fun _ => bind (param _ _ _) fun _ => bind (params ops jen little n _) fun _ => Grows.pure _

theorem conditions (little : Bool) (m : List (BitVec 64) → HandleMap) :
    ∀ n seen, Grows (deConditions little m n seen) (deConditions little m n seen)
  | 0, _ => Grows.pure _
  | n + 1, _ => bind size fun _ => bind (claim _) fun _ => bind (expr _ _) fun _ => bind (conditions little m n _) fun _ => Grows.pure _

theorem indexes : ∀ n room, Grows (deIndexes n room) (deIndexes n room)
  | 0, _ => Grows.pure _
  | n + 1, room => bind size fun _ => ite (undef _) (bind (indexes n (room - 1)) fun _ => Grows.pure _)

theorem dists {σ : Type} (M : Machine σ) (little : Bool) :
    ∀ n room seen, Grows (deDists M little n room seen) (deDists M little n room seen)
  | 0, _, _ => Grows.pure _
  | n + 1, _, _ => bind (claim _) fun _ => bind (dist _ _) fun _ => bind size fun _ => bind (indexes _ _) fun _ =>
    bind (dists M little n _ _) fun _ => Grows.pure _

theorem clauses (little : Bool) (m : List (BitVec 64) → HandleMap) : ∀ n seen, Grows (deClauses little m n seen) (deClauses little m n seen)
  | 0, _ => Grows.pure _
  | n + 1, _ => bind (claim _) fun _ => bind (expr _ _) fun _ => bind (clauses little m n _) fun _ => Grows.pure _

theorem space {σ : Type} (H : Host σ) : Grows (deSpace H) (deSpace H) := by
  unfold deSpace
  exact bind obj fun _ => bind (lift _) fun _ => bind string fun _ => bind size fun _ => bind size fun _ => bind size fun _ =>
    bind size fun _ => bind (rng _ _) fun _ => ite (undef _) (bind (params _ _ _ _ _) fun _ => bind (conditions _ _ _ _) fun _ =>
    bind (dists _ _ _ _ _) fun _ => bind (clauses _ _ _ _) fun _ => bind (lift _) fun _ => bind (lift _) fun _ => bind (lift _) fun _ =>
    bind (lift _) fun _ => bind userData fun _ => Grows.pure _)

theorem bindingData (little : Bool) : Grows (deBindingData little) (deBindingData little) :=
  bind handle fun _ => bind size fun _ => bind (times (datum _) _) fun _ => Grows.pure _

theorem bound (jen : Bytes → BitVec 32) (little : Bool) (t s : BitVec 32) (mapped : Bool) (m : Option Handles) (addr : BitVec 64) :
    Grows (deBound jen little t s mapped m addr) (deBound jen little t s mapped m addr) := by
  cases m with
  | none => exact Grows.fail _
  | some m =>
    exact bind obj fun _ => bind (lift _) fun _ => bind (bindingData _) fun _ => bind (lift _) fun _ => bind (lift _) fun _ =>
      bind (lift _) fun _ => bind userData fun _ => Grows.pure _

theorem featSpace (ops : FloatOps) (jen : Bytes → BitVec 32) (little : Bool) (at' : Nat → BitVec 64) (m : Handles) (addr : BitVec 64) :
    Grows (deFeatSpace ops jen little at' m addr) (deFeatSpace ops jen little at' m addr) :=
  bind obj fun _ => bind (lift _) fun _ => bind string fun _ => bind size fun _ => bind (times (param _ _ _) _) fun _ =>
    bind (lift _) fun _ => bind (lift _) fun _ => bind userData fun _ => Grows.pure _

theorem objectives (little : Bool) (m : List (BitVec 64) → HandleMap) :
    ∀ n seen, Grows (deObjectives little m n seen) (deObjectives little m n seen)
  | 0, _ => Grows.pure _
  | n + 1, _ => bind (claim _) fun _ => bind (expr _ _) fun _ => bind enum fun _ => bind (objectives little m n _) fun _ => Grows.pure _

theorem objSpace (ops : FloatOps) (jen : Bytes → BitVec 32) (little : Bool) (at' : Nat → BitVec 64) (m : Handles) (addr : BitVec 64) :
    Grows (deObjSpace ops jen little at' m addr) (deObjSpace ops jen little at' m addr) :=
  bind obj fun _ => bind (lift _) fun _ => bind string fun _ => bind size fun _ => bind size fun _ => ite (undef _)
    (bind (params _ _ _ _ _) fun _ => bind (objectives _ _ _ _) fun _ => bind (lift _) fun _ => bind (lift _) fun _ =>
    bind (lift _) fun _ => bind userData fun _ => Grows.pure _)

theorem eval (jen : Bytes → BitVec 32) (little wf mapped : Bool) (m : Option Handles) (place : EvalPlace) :
    Grows (deEval jen little wf mapped m place) (deEval jen little wf mapped m place) := by
  cases m with
  | none => exact Grows.fail _
  | some m =>
    refine bind obj fun _ => bind (lift _) fun _ => bind (bindingData _) fun _ => bind (bound _ _ _ _ _ _ _) fun _ => bind ?_ fun _ =>
      bind result fun _ => bind (lift _) fun _ => bind (lift _) fun _ => bind (lift _) fun _ => bind userData fun _ => Grows.pure _
    exact ite (bind (bound _ _ _ _ _ _ _) fun _ => Grows.pure _) (Grows.pure _)

theorem history (jen : Bytes → BitVec 32) (little wf : Bool) (P : Places) :
    ∀ n i m, Grows (deHistory jen little wf P n i m) (deHistory jen little wf P n i m)
  | 0, _, _ => Grows.pure _
  | n + 1, i, _ => bind (eval _ _ _ _ _ _) fun _ => bind (history jen little wf P n (i + 1) _) fun _ => Grows.pure _

theorem run {σ : Type} (H : Host σ) (wf : Bool) (P : Places) : Grows (deRun H wf P) (deRun H wf P) := by
  unfold deRun
  refine bind string fun _ => bind (space _) fun _ => bind (objSpace _ _ _ _ _ _) fun _ => bind ?_ fun _ => bind size fun _ =>
    bind size fun _ => ite (undef _) (bind (history _ _ _ _ _ _ _) fun _ => bind (times handle _) fun _ => bind (lift _) fun _ =>
    Grows.pure _)
  exact ite (bind (featSpace _ _ _ _ _ _) fun _ => Grows.pure _) (Grows.pure _)

theorem tuner {σ : Type} (H : Host σ) (wf : Bool) (P : Places) : Grows (deTuner H wf P) (deTuner H wf P) :=
  bind obj fun _ => bind (lift _) fun _ => bind enum fun _ => bind (lift _) fun _ => bind (run _ _ _) fun _ => bind userData fun _ =>
    Grows.pure _

theorem userTuner {σ τ : Type} (H : Host σ) (wf : Bool) (P : Places) (v : Option (UserVector τ)) (pointer : BitVec 64) (s : τ) :
    Grows (deUserTuner H wf P v pointer s) (deUserTuner H wf P v pointer s) :=
  bind obj fun _ => bind (lift _) fun _ => bind enum fun _ => bind (lift _) fun _ => bind (lift _) fun _ => bind (run _ _ _) fun _ =>
    bind blob fun _ => bind (lift _) fun _ => bind (lift _) fun _ => bind userData fun _ => Grows.pure _

/-! ## Trees -/

theorem kids {sub sub' : Grove → Rd (Grove × Nat)} (hs : ∀ g, Grows (sub g) (sub' g)) :
    ∀ n g, Grows (Forest.deKids sub n g) (Forest.deKids sub' n g)
  | 0, _ => Grows.pure _
  | n + 1, _ => bind bool fun _ => ite (bind (kids hs n _) fun _ => Grows.pure _)
    (bind (hs _) fun _ => bind (kids hs n _) fun _ => Grows.pure _)

theorem treeFuel (ops : FloatOps) (little : Bool) :
    ∀ a b g, a ≤ b → Grows (Forest.deTreeFuel ops little a g) (Forest.deTreeFuel ops little b g)
  | 0, _, _, _ => undef _
  | a + 1, 0, _, h => absurd h (Nat.not_succ_le_zero a)
  | a + 1, b + 1, _, h => by
    have sub := fun g => treeFuel ops little a b g (Nat.le_of_succ_le_succ h)
    exact bind obj fun _ => bind (lift _) fun _ => bind size fun _ => bind (u64 _) fun _ => bind (kids sub _ _) fun _ =>
      bind (u64 _) fun _ => bind (datum _) fun _ => bind (lift _) fun _ => bind (lift _) fun _ => bind userData fun _ => Grows.pure _

theorem tree (ops : FloatOps) (little : Bool) (g : Grove) : Grows (Forest.deTree ops little g) (Forest.deTree ops little g) := by
  have key := fun p q : Bytes => treeFuel ops little (p.length + 1) ((p ++ q).length + 1) g (by rw [List.length_append]; omega)
  exact ⟨fun p q => (key p q).more p q, fun p q => (key p q).less p q⟩

theorem treeSpace (ops : FloatOps) (little : Bool) (gens : List (Bytes × Bytes)) (fresh : RngObj) (v : Option TreeVector) (g : Grove)
    (m : Handles) (addr : BitVec 64) :
    Grows (deTreeSpace ops little gens fresh v g m addr) (deTreeSpace ops little gens fresh v g m addr) :=
  bind obj fun _ => bind (lift _) fun _ => bind enum fun _ => bind (lift _) fun _ => bind string fun _ => bind (rng _ _) fun _ =>
    bind (tree _ _ _) fun _ => bind (lift _) fun _ => bind (lift _) fun _ => bind userData fun _ => Grows.pure _

theorem treeConf (mapped : Bool) (m : Option Handles) (addr : BitVec 64) : Grows (deTreeConf mapped m addr) (deTreeConf mapped m addr) := by
  cases m with
  | none => exact Grows.fail _
  | some m =>
    refine bind obj fun _ => bind (lift _) fun _ => bind handle fun _ => bind ?_ fun _ => bind (lift _) fun _ =>
      bind (lift _) fun _ => bind userData fun _ => Grows.pure _
    exact bind size fun _ => ite (bind (times size _) fun _ => undef _) (bind (times size _) fun _ => Grows.pure _)

theorem treeEval (jen : Bytes → BitVec 32) (little mapped : Bool) (m : Option Handles) (place : EvalPlace) :
    Grows (deTreeEval jen little mapped m place) (deTreeEval jen little mapped m place) := by
  cases m with
  | none => exact Grows.fail _
  | some m =>
    exact bind obj fun _ => bind (lift _) fun _ => bind (bindingData _) fun _ => bind (treeConf _ _ _) fun _ => bind result fun _ =>
      bind (lift _) fun _ => bind (lift _) fun _ => bind (lift _) fun _ => bind userData fun _ => Grows.pure _

theorem treeHistory (jen : Bytes → BitVec 32) (little : Bool) (P : Places) :
    ∀ n i m, Grows (deTreeHistory jen little P n i m) (deTreeHistory jen little P n i m)
  | 0, _, _ => Grows.pure _
  | n + 1, i, _ => bind (treeEval _ _ _ _ _) fun _ => bind (treeHistory jen little P n (i + 1) _) fun _ => Grows.pure _

theorem treeRun (H : TreeHost) (P : Places) : Grows (deTreeRun H P) (deTreeRun H P) :=
  bind string fun _ => bind (treeSpace _ _ _ _ _ _ _ _) fun _ => bind (objSpace _ _ _ _ _ _) fun _ => bind size fun _ =>
    bind size fun _ => ite (undef _) (bind (treeHistory _ _ _ _ _ _) fun _ => bind (times handle _) fun _ => bind (lift _) fun _ =>
    Grows.pure _)

theorem treeTuner (H : TreeHost) (P : Places) : Grows (deTreeTuner H P) (deTreeTuner H P) :=
  bind obj fun _ => bind (lift _) fun _ => bind enum fun _ => bind (lift _) fun _ => bind (treeRun _ _) fun _ => bind userData fun _ =>
    Grows.pure _

theorem userTreeTuner {τ : Type} (H : TreeHost) (P : Places) (v : Option (UserVector τ)) (pointer : BitVec 64) (s : τ) :
    Grows (deUserTreeTuner H P v pointer s) (deUserTreeTuner H P v pointer s) :=
  bind obj fun _ => bind (lift _) fun _ => bind enum fun _ => bind (lift _) fun _ => bind (lift _) fun _ => bind (treeRun _ _) fun _ =>
    bind blob fun _ => bind (lift _) fun _ => bind (lift _) fun _ => bind userData fun _ => Grows.pure _

/-! ## Any object -/

theorem kind {σ τ : Type} (D : Desk σ τ) (k : Kind) : Grows (k.reader D) (k.reader D) := by
  have hp : Grows peekTuner peekTuner := peek (bind obj fun _ => enum)
  have ht : ∀ wf, Grows (deAnyTuner D wf) (deAnyTuner D wf) := fun wf => bind hp fun _ =>
    ite (bind (userTuner _ _ _ _ _ _) fun _ => Grows.pure _) (bind (tuner _ _ _) fun _ => Grows.pure _)
  have htt : Grows (deAnyTreeTuner D) (deAnyTreeTuner D) := bind hp fun _ =>
    ite (bind (userTreeTuner _ _ _ _ _) fun _ => Grows.pure _) (bind (treeTuner _ _) fun _ => Grows.pure _)
  cases k with
  | rng => exact bind (rng _ _) fun _ => Grows.pure _
  | distribution => exact bind (dist _ _) fun _ => Grows.pure _
  | parameter => exact bind (param _ _ _) fun _ => Grows.pure _
  | expression => exact bind (expr _ _) fun _ => Grows.pure _
  | featuresSpace => exact bind (featSpace _ _ _ _ _ _) fun _ => Grows.pure _
  | configurationSpace => exact bind (space _) fun _ => Grows.pure _
  | objectiveSpace => exact bind (objSpace _ _ _ _ _ _) fun _ => Grows.pure _
  | configuration => exact bind (bound _ _ _ _ _ _ _) fun _ => Grows.pure _
  | evaluation => exact bind (eval _ _ _ _ _ _) fun _ => Grows.pure _
  | features => exact bind (bound _ _ _ _ _ _ _) fun _ => Grows.pure _
  | featuresEvaluation => exact bind (eval _ _ _ _ _ _) fun _ => Grows.pure _
  | tuner => exact bind (ht _) fun _ => Grows.pure _
  | featuresTuner => exact bind (ht _) fun _ => Grows.pure _
  | map => exact bind (map _ _ _) fun _ => Grows.pure _
  | tree => exact bind (tree _ _ _) fun _ => Grows.pure _
  | treeSpace => exact bind (treeSpace _ _ _ _ _ _ _ _) fun _ => Grows.pure _
  | treeConfiguration => exact bind (treeConf _ _ _) fun _ => Grows.pure _
  | treeEvaluation => exact bind (treeEval _ _ _ _ _) fun _ => Grows.pure _
  | treeTuner => exact bind htt fun _ => Grows.pure _

theorem any {σ τ : Type} (D : Desk σ τ) : Grows (deAny D) (deAny D) := by
  unfold deAny
  refine bind (peek enum) fun t => ?_
  cases Kind.ofCode t with
  | none => exact Grows.fail _
  | some k => exact kind D k

end Grows

end CCS
