import Verif.Model.TreeWire
import Verif.Model.DistWire
import Verif.Model.Expr

/-!
# The depth of what is read

Readers of nested objects recurse down to a depth given by the number of bytes: they never get there.
-/

namespace CCS

/-- A reader leaves no more than it got. -/
def Shrinks {α : Type} (r : Rd α) : Prop := ∀ bs x rest, r bs = .ok (x, rest) → rest.length ≤ bs.length

/-- Two readers that cannot be told apart with fewer than `N` bytes. -/
def Alike {α : Type} (N : Nat) (r r' : Rd α) : Prop := ∀ bs, bs.length < N → r bs = r' bs

namespace Shrinks

theorem pure {α : Type} (a : α) : Shrinks (Pure.pure a : Rd α) := by
  intro bs x rest h
  cases h
  exact Nat.le_refl _

theorem fail {α : Type} (e : Err) : Shrinks (Rd.fail e : Rd α) := nofun

theorem undef {α : Type} : Shrinks (Rd.undef : Rd α) := nofun

theorem lift {α : Type} (o : Out α) : Shrinks (Rd.lift o) := by
  intro bs x rest h
  cases o with
  | ok a => cases h; exact Nat.le_refl _
  | err e => cases h
  | ub => cases h

theorem bind {α β : Type} {r : Rd α} {f : α → Rd β} (hr : Shrinks r) (hf : ∀ a, Shrinks (f a)) : Shrinks (r >>= f) := by
  intro bs x rest h
  have h' : Out.bind (r bs) (fun y => f y.1 y.2) = .ok (x, rest) := h
  cases hp : r bs with
  | err e => rw [hp] at h'; cases h'
  | ub => rw [hp] at h'; cases h'
  | ok y =>
    rw [hp] at h'
    exact Nat.le_trans (hf y.1 y.2 x rest h') (hr bs y.1 y.2 hp)

theorem peek {α : Type} (r : Rd α) : Shrinks (Rd.peek r) := by
  intro bs x rest h
  have h' : Out.bind (r bs) (fun y => Out.ok (y.1, bs)) = .ok (x, rest) := h
  cases hp : r bs with
  | err e => rw [hp] at h'; cases h'
  | ub => rw [hp] at h'; cases h'
  | ok y => rw [hp] at h'; cases h'; exact Nat.le_refl _

theorem ite {α : Type} {c : Prop} [Decidable c] {r s : Rd α} (hr : Shrinks r) (hs : Shrinks s) : Shrinks (if c then r else s) := by
  by_cases h : c
  · rw [if_pos h]; exact hr
  · rw [if_neg h]; exact hs

theorem times {α : Type} {r : Rd α} (hr : Shrinks r) : ∀ n, Shrinks (r.times n)
  | 0 => Shrinks.pure _
  | n + 1 => bind hr fun _ => bind (times hr n) fun _ => Shrinks.pure _

theorem fixed {α : Type} (n : Nat) (f : Bytes → α) : Shrinks (deFixed n f) := by
  intro bs x rest h
  unfold deFixed at h
  by_cases hn : bs.length < n
  · rw [if_pos hn] at h; cases h
  · rw [if_neg hn] at h
    cases h
    rw [List.length_drop]
    omega

theorem unchecked (n : Nat) : Shrinks (deUnchecked n) := by
  intro bs x rest h
  unfold deUnchecked at h
  by_cases hn : bs.length < n
  · rw [if_pos hn] at h; cases h
  · rw [if_neg hn] at h
    cases h
    rw [List.length_drop]
    omega

theorem lebLoop {w : Nat} : ∀ (bs : Bytes) (v : BitVec w) (s : Nat) (x : BitVec w) (rest : Bytes),
    deLebLoop v s bs = .ok (x, rest) → rest.length < bs.length
  | [], _, _, _, _, h => by cases h
  | y :: bs, v, s, x, rest, h => by
    unfold deLebLoop at h
    by_cases hs : w ≤ s
    · rw [if_pos hs] at h; cases h
    · rw [if_neg hs] at h
      dsimp only at h
      by_cases hy : y &&& 0x80#8 ≠ 0#8
      · rw [if_pos hy] at h
        exact Nat.lt_succ_of_lt (lebLoop bs _ _ x rest h)
      · rw [if_neg hy] at h
        cases h
        exact Nat.lt_succ_self _

theorem leb (w : Nat) : Shrinks (deLeb w) := fun bs x rest h => Nat.le_of_lt (lebLoop bs _ _ x rest h)

theorem size : Shrinks deSize := bind (leb _) fun _ => Shrinks.pure _

theorem int : Shrinks deInt := bind (leb _) fun _ => Shrinks.pure _

theorem u64 (little : Bool) : Shrinks (deU64Fixed little) := fixed 8 _

theorem cstr (n : Nat) : Shrinks (deCString n) := by
  intro bs x rest h
  unfold deCString at h
  by_cases hn : bs.length < n
  · rw [if_pos hn] at h; cases h
  · rw [if_neg hn] at h
    cases hc : cString bs with
    | err e => rw [hc] at h; cases h
    | ub => rw [hc] at h; cases h
    | ok t =>
      rw [hc] at h
      cases h
      rw [List.length_drop]
      omega

theorem string : Shrinks deString := bind size fun _ => cstr _

theorem obj : Shrinks deObj := bind (leb _) fun _ => bind (leb _) fun _ => Shrinks.pure _

theorem userData : Shrinks deUserData := bind size fun _ => unchecked _

theorem datum (little : Bool) : Shrinks (deDatum little) := by
  unfold deDatum
  refine bind (leb _) fun t => ?_
  generalize t.toNat = n
  split
  · exact Shrinks.pure _
  · exact Shrinks.pure _
  · exact bind int fun _ => Shrinks.pure _
  · exact bind (u64 _) fun _ => Shrinks.pure _
  · exact bind (leb _) fun _ => Shrinks.pure _
  · exact bind string fun _ => Shrinks.pure _
  · exact bind (leb _) fun _ => Shrinks.pure _
  · exact Shrinks.fail _

end Shrinks

/-- An object header takes at least one byte. -/
theorem deObj_takes {bs rest : Bytes} {o : BitVec 32 × BitVec 64} (h : deObj bs = .ok (o, rest)) : rest.length < bs.length := by
  have h' : Out.bind (deEnum bs) (fun y => (deHandle >>= fun h => pure (y.1, h) : Rd _) y.2) = .ok (o, rest) := h
  cases hp : deEnum bs with
  | err e => rw [hp] at h'; cases h'
  | ub => rw [hp] at h'; cases h'
  | ok y =>
    rw [hp] at h'
    have h1 := Shrinks.lebLoop bs _ _ y.1 y.2 hp
    have h2 := (Shrinks.bind (Shrinks.leb 64) fun h => Shrinks.pure (y.1, h)) y.2 o rest h'
    omega

namespace Alike

theorem refl {α : Type} (N : Nat) (r : Rd α) : Alike N r r := fun _ _ => rfl

theorem bind {α β : Type} {N : Nat} {r r' : Rd α} {f f' : α → Rd β} (hr : Alike N r r') (hs : Shrinks r) (hf : ∀ a, Alike N (f a) (f' a)) :
    Alike N (r >>= f) (r' >>= f') := by
  intro bs hb
  show Out.bind (r bs) (fun y => f y.1 y.2) = Out.bind (r' bs) (fun y => f' y.1 y.2)
  rw [← hr bs hb]
  cases hp : r bs with
  | err e => rfl
  | ub => rfl
  | ok y => exact hf y.1 y.2 (Nat.lt_of_le_of_lt (hs bs y.1 y.2 hp) hb)

/-- The first part being the same in both. -/
theorem after {α β : Type} {N : Nat} {r : Rd α} {f f' : α → Rd β} (hs : Shrinks r) (hf : ∀ a, Alike N (f a) (f' a)) :
    Alike N (r >>= f) (r >>= f') := bind (refl N r) hs hf

/-- After an object header, there is one byte less. -/
theorem obj {β : Type} {N : Nat} {f f' : BitVec 32 × BitVec 64 → Rd β} (hf : ∀ a, Alike N (f a) (f' a)) :
    Alike (N + 1) (deObj >>= f) (deObj >>= f') := by
  intro bs hb
  show Out.bind (deObj bs) (fun y => f y.1 y.2) = Out.bind (deObj bs) (fun y => f' y.1 y.2)
  cases hp : deObj bs with
  | err e => rfl
  | ub => rfl
  | ok y =>
    have h1 : y.2.length < bs.length := deObj_takes hp
    exact hf y.1 y.2 (by omega)

theorem ite {α : Type} {N : Nat} {c : Prop} [Decidable c] {r r' s s' : Rd α} (hr : Alike N r r') (hs : Alike N s s') :
    Alike N (if c then r else s) (if c then r' else s') := by
  by_cases h : c
  · rw [if_pos h, if_pos h]; exact hr
  · rw [if_neg h, if_neg h]; exact hs

theorem times {α : Type} {N : Nat} {r r' : Rd α} (hr : Alike N r r') (hs : Shrinks r) : ∀ n, Alike N (r.times n) (r'.times n)
  | 0 => refl _ _
  | n + 1 => bind hr hs fun _ => bind (times hr hs n) (Shrinks.times hs n) fun _ => refl _ _

end Alike

/-! ## Expressions -/

theorem shrinks_exprFuel (little : Bool) (m : HandleMap) : ∀ a, Shrinks (deExprFuel little m a)
  | 0 => Shrinks.undef
  | a + 1 => by
    have sub := shrinks_exprFuel little m a
    have hn : Shrinks deNoNodes := .bind (.leb _) fun _ => .bind .size fun _ => .ite (.pure _) .undef
    unfold deExprFuel
    refine .bind .obj fun _ => .bind (.lift _) fun _ => .bind (.peek _) fun t => .bind ?_ fun _ => .bind .userData fun _ => .pure _
    unfold deExprBody deLiteral deVariable deGeneral
    refine .ite ?_ (.ite ?_ (.ite (.fail _) ?_))
    · exact .bind hn fun _ => .bind (.datum _) fun _ => .lift _
    · exact .bind (.lift _) fun _ => .bind hn fun _ => .bind (.leb _) fun _ => .lift _
    · exact .bind (.leb _) fun _ => .bind .size fun _ => .bind (.times sub _) fun _ => .lift _

theorem alike_exprFuel (little : Bool) (m : HandleMap) : ∀ N a b, N ≤ a → N ≤ b → Alike N (deExprFuel little m a) (deExprFuel little m b)
  | 0, _, _, _, _ => fun _ h => absurd h (Nat.not_lt_zero _)
  | N + 1, 0, _, h, _ => absurd h (Nat.not_succ_le_zero N)
  | N + 1, _ + 1, 0, _, h => absurd h (Nat.not_succ_le_zero N)
  | N + 1, a + 1, b + 1, ha, hb => by
    have sub := alike_exprFuel little m N a b (Nat.le_of_succ_le_succ ha) (Nat.le_of_succ_le_succ hb)
    have ss := shrinks_exprFuel little m a
    have hn : Shrinks deNoNodes := .bind (.leb _) fun _ => .bind .size fun _ => .ite (.pure _) .undef
    unfold deExprFuel
    refine .obj fun o => .after (.lift _) fun _ => .after (.peek _) fun t => .bind ?_ ?_ fun _ => .refl _ _
    · unfold deExprBody deGeneral
      refine .ite (.refl _ _) (.ite (.refl _ _) (.ite (.refl _ _) ?_))
      exact .after (.leb _) fun _ => .after .size fun _ => .bind (.times sub ss _) (.times ss _) fun _ => .refl _ _
    · unfold deExprBody deLiteral deVariable deGeneral
      refine .ite ?_ (.ite ?_ (.ite (.fail _) ?_))
      · exact .bind hn fun _ => .bind (.datum _) fun _ => .lift _
      · exact .bind (.lift _) fun _ => .bind hn fun _ => .bind (.leb _) fun _ => .lift _
      · exact .bind (.leb _) fun _ => .bind .size fun _ => .bind (.times ss _) fun _ => .lift _

/-- More fuel than there are bytes changes nothing. -/
theorem deExpr_fuel (little : Bool) (m : HandleMap) (fuel : Nat) (bs : Bytes) (h : bs.length < fuel) :
    deExprFuel little m fuel bs = deExpr little m bs :=
  alike_exprFuel little m (bs.length + 1) fuel (bs.length + 1) h (Nat.le_refl _) bs (Nat.lt_succ_self _)

/-! ## Distributions -/

theorem shrinks_areas (little : Bool) (room : Nat) : ∀ n i, Shrinks (DistObj.deAreas little room n i)
  | 0, _ => .pure _
  | n + 1, i => .bind (.u64 _) fun _ => .ite .undef (.bind (shrinks_areas little room n (i + 1)) fun _ => .pure _)

theorem shrinks_distBody {σ : Type} (M : Machine σ) (little : Bool) (sub : Rd DistObj) (ss : Shrinks sub) (n : Nat) :
    Shrinks (match n with
      | 0 => DistObj.deUniform M little
      | 1 => DistObj.deNormal little
      | 2 => DistObj.deRoulette M.ops little
      | 3 => DistObj.deMixture M little sub
      | 4 => DistObj.deMultivariate M sub
      | _ => Rd.fail .unsupportedOperation) := by
  have num : ∀ t, Shrinks (DistObj.deNumeric little t) := fun t => .ite (.u64 _) .int
  split
  · exact .bind (.leb _) fun _ => .bind (.leb _) fun _ => .bind (.leb _) fun _ => .bind (num _) fun _ => .bind (num _) fun _ =>
      .bind (num _) fun _ => .bind (.lift _) fun _ => .bind (.lift _) fun _ => .lift _
  · exact .bind (.leb _) fun _ => .bind (.leb _) fun _ => .bind (.leb _) fun _ => .bind (.u64 _) fun _ => .bind (.u64 _) fun _ =>
      .bind (num _) fun _ => .bind (.lift _) fun _ => .bind (.lift _) fun _ => .lift _
  · exact .bind (.leb _) fun _ => .bind .size fun _ => .bind (shrinks_areas _ _ _ _) fun _ => .lift _
  · refine .bind (.leb _) fun _ => .bind .size fun _ => .bind (.lift _) fun _ => .bind (.times ?_ _) fun _ => .lift _
    exact .bind (.u64 _) fun _ => .bind ss fun _ => .pure _
  · exact .bind (.leb _) fun _ => .bind .size fun _ => .bind (.lift _) fun _ => .bind (.times ss _) fun _ => .lift _
  · exact .fail _

theorem shrinks_distFuel {σ : Type} (M : Machine σ) (little : Bool) : ∀ a, Shrinks (DistObj.readFuel M little a)
  | 0 => Shrinks.undef
  | a + 1 => .bind .obj fun _ => .bind (.lift _) fun _ => .bind (.peek _) fun t =>
    .bind (shrinks_distBody M little _ (shrinks_distFuel M little a) t.toNat) fun _ => .bind .userData fun _ => .pure _

theorem alike_distFuel {σ : Type} (M : Machine σ) (little : Bool) :
    ∀ N a b, N ≤ a → N ≤ b → Alike N (DistObj.readFuel M little a) (DistObj.readFuel M little b)
  | 0, _, _, _, _ => fun _ h => absurd h (Nat.not_lt_zero _)
  | N + 1, 0, _, h, _ => absurd h (Nat.not_succ_le_zero N)
  | N + 1, _ + 1, 0, _, h => absurd h (Nat.not_succ_le_zero N)
  | N + 1, a + 1, b + 1, ha, hb => by
    have sub := alike_distFuel M little N a b (Nat.le_of_succ_le_succ ha) (Nat.le_of_succ_le_succ hb)
    have ss := shrinks_distFuel M little a
    unfold DistObj.readFuel
    refine .obj fun o => .after (.lift _) fun _ => .after (.peek _) fun t =>
      .bind ?_ (shrinks_distBody M little _ ss t.toNat) fun _ => .refl _ _
    generalize t.toNat = n
    split
    · exact .refl _ _
    · exact .refl _ _
    · exact .refl _ _
    · have hw : Shrinks (DistObj.deWeighted little (DistObj.readFuel M little a)) := .bind (.u64 _) fun _ => .bind ss fun _ => .pure _
      refine .after (.leb _) fun _ => .after .size fun _ => .after (.lift _) fun _ => .bind (.times ?_ hw _) (.times hw _) fun _ => .refl _ _
      exact .after (.u64 _) fun _ => .bind sub ss fun _ => .refl _ _
    · exact .after (.leb _) fun _ => .after .size fun _ => .after (.lift _) fun _ => .bind (.times sub ss _) (.times ss _) fun _ => .refl _ _
    · exact .refl _ _

/-- More fuel than there are bytes changes nothing. -/
theorem DistObj.read_fuel {σ : Type} (M : Machine σ) (little : Bool) (fuel : Nat) (bs : Bytes) (h : bs.length < fuel) :
    DistObj.readFuel M little fuel bs = DistObj.read M little bs :=
  alike_distFuel M little (bs.length + 1) fuel (bs.length + 1) h (Nat.le_refl _) bs (Nat.lt_succ_self _)

/-! ## Trees -/

theorem shrinks_kids {sub : Grove → Rd (Grove × Nat)} (hs : ∀ g, Shrinks (sub g)) : ∀ n g, Shrinks (Forest.deKids sub n g)
  | 0, _ => .pure _
  | n + 1, _ => .bind (.leb _) fun _ => .ite (.bind (shrinks_kids hs n _) fun _ => .pure _)
    (.bind (hs _) fun _ => .bind (shrinks_kids hs n _) fun _ => .pure _)

theorem alike_kids {N : Nat} {sub sub' : Grove → Rd (Grove × Nat)} (ha : ∀ g, Alike N (sub g) (sub' g)) (hs : ∀ g, Shrinks (sub g)) :
    ∀ n g, Alike N (Forest.deKids sub n g) (Forest.deKids sub' n g)
  | 0, _ => .refl _ _
  | n + 1, _ => .after (.leb _) fun _ => .ite (.bind (alike_kids ha hs n _) (shrinks_kids hs n _) fun _ => .refl _ _)
    (.bind (ha _) (hs _) fun _ => .bind (alike_kids ha hs n _) (shrinks_kids hs n _) fun _ => .refl _ _)

theorem shrinks_treeFuel (ops : FloatOps) (little : Bool) : ∀ a g, Shrinks (Forest.deTreeFuel ops little a g)
  | 0, _ => Shrinks.undef
  | a + 1, _ => .bind .obj fun _ => .bind (.lift _) fun _ => .bind .size fun _ => .bind (.u64 _) fun _ =>
    .bind (shrinks_kids (shrinks_treeFuel ops little a) _ _) fun _ => .bind (.u64 _) fun _ => .bind (.datum _) fun _ =>
    .bind (.lift _) fun _ => .bind (.lift _) fun _ => .bind .userData fun _ => .pure _

theorem alike_treeFuel (ops : FloatOps) (little : Bool) :
    ∀ N a b g, N ≤ a → N ≤ b → Alike N (Forest.deTreeFuel ops little a g) (Forest.deTreeFuel ops little b g)
  | 0, _, _, _, _, _ => fun _ h => absurd h (Nat.not_lt_zero _)
  | N + 1, 0, _, _, h, _ => absurd h (Nat.not_succ_le_zero N)
  | N + 1, _ + 1, 0, _, _, h => absurd h (Nat.not_succ_le_zero N)
  | N + 1, a + 1, b + 1, _, ha, hb => by
    have sub := fun g => alike_treeFuel ops little N a b g (Nat.le_of_succ_le_succ ha) (Nat.le_of_succ_le_succ hb)
    have ss := shrinks_treeFuel ops little a
    exact .obj fun o => .after (.lift _) fun _ => .after .size fun _ => .after (.u64 _) fun _ =>
      .bind (alike_kids sub ss _ _) (shrinks_kids ss _ _) fun _ => .refl _ _

/-- More fuel than there are bytes changes nothing. -/
theorem Forest.deTree_fuel (ops : FloatOps) (little : Bool) (g : Grove) (fuel : Nat) (bs : Bytes) (h : bs.length < fuel) :
    Forest.deTreeFuel ops little fuel g bs = Forest.deTree ops little g bs :=
  alike_treeFuel ops little (bs.length + 1) fuel (bs.length + 1) g h (Nat.le_refl _) bs (Nat.lt_succ_self _)

end CCS
