import Verif.Spec.Api

/-! Lemmas about the argument checks of the entry points. -/

namespace CCS.Api

open Spec

theorem isNull_iff (args : Args) (a : Nat) : (args a).isNull = true ↔ IsNull args a := by
  unfold IsNull
  cases args a with
  | handle h => cases h <;> simp [Arg.isNull]
  | pointer b => simp [Arg.isNull]
  | number n => simp [Arg.isNull]

theorem isNot_iff (args : Args) (a : Nat) (k : Kind) : (args a).isNot k = true ↔ NotValid args a [k] := by
  unfold NotValid
  cases args a with
  | handle h => cases h <;> simp [Arg.isNot]
  | pointer b => simp [Arg.isNot]
  | number n => simp [Arg.isNot]

theorem unlike_iff (args : Args) (a : Nat) (ks : List Kind) : (args a).unlike ks = true ↔ NotValid args a ks := by
  unfold NotValid
  cases args a with
  | handle h => cases h <;> simp [Arg.unlike]
  | pointer b => simp [Arg.unlike]
  | number n => simp [Arg.unlike]

theorem noData_iff (args : Args) (a : Nat) :
    (args a).noData = true ↔ args a = .handle .null ∨ args a = .handle .void := by
  cases args a with
  | handle h => cases h <;> simp [Arg.noData]
  | pointer b => simp [Arg.noData]
  | number n => simp [Arg.noData]

theorem isZero_iff (args : Args) (a : Nat) : (args a).isZero = true ↔ args a = .number 0 := by
  cases args a with
  | handle h => simp [Arg.isZero]
  | pointer b => simp [Arg.isZero]
  | number n => simp [Arg.isZero]

/-- The step refuses whenever the clause holds. -/
def refutes : Step → Clause → Bool
  | .obj a k, .notValid b ks => a == b && ks == [k]
  | .given a, .noObject b => a == b
  | .optObj a k, .notValidIfGiven b ks => a == b && ks == [k]
  | .ptr a, .null b => a == b
  | .ptr a, .nullArray b _ => a == b
  | .ary a n, .nullArray b m => a == b && n == m
  | .some as, .allNull bs => as.all fun a => bs.contains a
  | .nonzero n, .noCount m => n == m
  | _, _ => false

/-- The steps done before this one checked that the object has data. -/
def hasData (prev : List Step) (a : Nat) : Bool :=
  prev.any fun
    | .obj b _ => a == b
    | .anyObj b => a == b
    | _ => false

/-- The step can only refuse or go on when the clause holds, none of the gaps is met and the steps
`prev` went well. -/
def safe (gs : List Clause) (prev : List Step) (c : Clause) : Step → Bool
  | .stopZero n => match c with
    | .nullArray _ m => n == m
    | _ => false
  | .write a => gs.contains (.null a) || prev.contains (.ptr a)
  | .use a ks => gs.contains (.wrongKind a ks) && hasData prev a
  | _ => true

/-- The clause that is left to refuse when the step went well. -/
def rest : Step → Clause → Clause
  | .ary a n, .null b => if a == b then .noCount n else .null b
  | _, c => c

/-- The step refuses whatever of the clause is not a gap. -/
def refutesPart (gs : List Clause) : Step → Clause → Bool
  | .anyObj a, .notValid b ks => a == b && gs.contains (.wrongKind a ks)
  | _, _ => false

/-- Some step refuses whenever the clause holds, and those before it are safe. -/
def covers (gs : List Clause) (prev : List Step) (c : Clause) : List Step → Bool
  | [] => false
  | s :: r => refutes s c || refutesPart gs s c ||
      (safe gs prev c s && covers gs (s :: prev) (rest s c) r)

/-- The step went well. -/
def Passed (args : Args) : Step → Prop
  | .ptr a => (args a).isNull = false
  | .obj a _ | .anyObj a => (args a).noData = false
  | _ => True

theorem noData_of_isNot {x : Arg} {k : Kind} (h : x.isNot k = false) : x.noData = false := by
  cases x with
  | handle h' => cases h' <;> simp_all [Arg.isNot, Arg.noData]
  | pointer b => rfl
  | number n => rfl

theorem refutes_sound {args : Args} {s : Step} {c : Clause} (h : refutes s c = true) (hv : Violates args c)
    (r : List Step) (o : List (Option Err)) : run args (s :: r) o = .err c.code := by
  cases s <;> cases c <;> simp only [refutes, Bool.false_eq_true, Bool.and_eq_true, beq_iff_eq] at h
  case obj.notValid a k b ks =>
    obtain ⟨rfl, rfl⟩ := h
    have : (args a).isNot k = true := (isNot_iff args a k).2 hv
    simp [run, this, Clause.code]
  case given.noObject a b =>
    subst h
    have : (args a).isNull = true := (isNull_iff args a).2 hv
    simp [run, this, Clause.code]
  case optObj.notValidIfGiven a k b ks =>
    obtain ⟨rfl, rfl⟩ := h
    have h1 : (args a).isNull = false := by
      cases hn : (args a).isNull with
      | false => rfl
      | true => exact absurd ((isNull_iff args a).1 hn) hv.1
    have h2 : (args a).isNot k = true := (isNot_iff args a k).2 hv.2
    simp [run, h1, h2, Clause.code]
  case ptr.null a b =>
    subst h
    have : (args a).isNull = true := (isNull_iff args a).2 hv
    simp [run, this, Clause.code]
  case ptr.nullArray a b n =>
    subst h
    have : (args a).isNull = true := (isNull_iff args a).2 hv.1
    simp [run, this, Clause.code]
  case ary.nullArray a n b m =>
    obtain ⟨rfl, rfl⟩ := h
    have h1 : (args a).isNull = true := (isNull_iff args a).2 hv.1
    have h2 : (args n).isZero = false := by
      cases hz : (args n).isZero with
      | false => rfl
      | true => exact absurd rfl (hv.2 0 ((isZero_iff args n).1 hz))
    simp [run, h1, h2, Clause.code]
  case some.allNull as bs =>
    have : (as.all fun a => (args a).isNull) = true := by
      rw [List.all_eq_true] at h ⊢
      intro a ha
      exact (isNull_iff args a).2 (hv a (by simpa using h a ha))
    simp only [run, this, if_true, Clause.code]
  case nonzero.noCount n m =>
    subst h
    have : (args n).isZero = true := (isZero_iff args n).2 hv
    simp [run, this, Clause.code]

theorem refutesPart_sound {args : Args} {gs : List Clause} (hg : ∀ g ∈ gs, ¬ Violates args g) {s : Step} {c : Clause}
    (h : refutesPart gs s c = true) (hv : Violates args c)
    (r : List Step) (o : List (Option Err)) : run args (s :: r) o = .err c.code := by
  cases s <;> cases c <;> simp only [refutesPart, Bool.false_eq_true, Bool.and_eq_true, beq_iff_eq] at h
  case anyObj.notValid a b ks =>
    obtain ⟨rfl, hk⟩ := h
    have : (args a).noData = true := by
      refine (noData_iff args a).2 ?_
      rcases hv with hv | hv | hv
      · exact .inl hv
      · exact .inr hv
      · exact absurd hv (hg (.wrongKind a ks) (by simpa using hk))
    simp [run, this, Clause.code]

theorem step_sound {args : Args} {gs : List Clause} (hg : ∀ g ∈ gs, ¬ Violates args g) {prev : List Step}
    (hp : ∀ s ∈ prev, Passed args s) {s : Step} {c : Clause} (h : safe gs prev c s = true) (hv : Violates args c)
    (r : List Step) (o : List (Option Err)) :
    (∃ e, run args (s :: r) o = .err e) ∨
      (Passed args s ∧ Violates args (rest s c) ∧ ∃ o', run args (s :: r) o = run args r o') := by
  cases s with
  | obj a k =>
    cases hn : (args a).isNot k with
    | true => exact .inl ⟨_, by simp [run, hn]; rfl⟩
    | false => exact .inr ⟨noData_of_isNot hn, hv, o, by simp [run, hn]⟩
  | anyObj a =>
    cases hn : (args a).noData with
    | true => exact .inl ⟨_, by simp [run, hn]; rfl⟩
    | false => exact .inr ⟨hn, hv, o, by simp [run, hn]⟩
  | optObj a k =>
    cases hn : (args a).isNull with
    | true => exact .inr ⟨trivial, hv, o, by simp [run, hn]⟩
    | false =>
      cases hk : (args a).isNot k with
      | true => exact .inl ⟨_, by simp [run, hn, hk]; rfl⟩
      | false => exact .inr ⟨trivial, hv, o, by simp [run, hn, hk]⟩
  | given a =>
    cases hn : (args a).isNull with
    | true => exact .inl ⟨_, by simp [run, hn]; rfl⟩
    | false => exact .inr ⟨trivial, hv, o, by simp [run, hn]⟩
  | ptr a =>
    cases hn : (args a).isNull with
    | true => exact .inl ⟨_, by simp [run, hn]; rfl⟩
    | false => exact .inr ⟨hn, hv, o, by simp [run, hn]⟩
  | ary a n =>
    cases hz : (args n).isZero with
    | true =>
      refine .inr ⟨trivial, ?_, o, by simp [run, hz]⟩
      cases c <;> try exact hv
      case null b =>
        by_cases hab : a = b
        · simpa [rest, hab, Violates] using (isZero_iff args n).1 hz
        · simpa [rest, hab] using hv
    | false =>
      cases hn : (args a).isNull with
      | true => exact .inl ⟨_, by simp [run, hn, hz]; rfl⟩
      | false =>
        refine .inr ⟨trivial, ?_, o, by simp [run, hn, hz]⟩
        cases c <;> try exact hv
        case null b =>
          by_cases hab : a = b
          · subst hab
            rw [(isNull_iff args a).2 hv] at hn
            cases hn
          · simpa [rest, hab] using hv
  | some as =>
    cases hn : (as.all fun a => (args a).isNull) with
    | true => exact .inl ⟨.invalidValue, by simp only [run, hn, if_true]⟩
    | false => exact .inr ⟨trivial, hv, o, by simp only [run, hn, Bool.false_eq_true, if_false]⟩
  | nonzero n =>
    cases hn : (args n).isZero with
    | true => exact .inl ⟨_, by simp [run, hn]; rfl⟩
    | false => exact .inr ⟨trivial, hv, o, by simp [run, hn]⟩
  | stopZero n =>
    cases c <;> simp only [safe, Bool.false_eq_true, beq_iff_eq] at h
    case nullArray a m =>
      subst h
      have hn : (args n).isZero = false := by
        cases hz : (args n).isZero with
        | false => rfl
        | true => exact absurd rfl (hv.2 0 ((isZero_iff args n).1 hz))
      exact .inr ⟨trivial, hv, o, by simp [run, hn]⟩
  | ptrFor a ks p =>
    cases hn : ((args a).among ks && (args p).isNull) with
    | true => exact .inl ⟨.invalidValue, by simp only [run, hn, if_true]⟩
    | false => exact .inr ⟨trivial, hv, o, by simp only [run, hn, Bool.false_eq_true, if_false]⟩
  | may =>
    cases o with
    | nil => exact .inr ⟨trivial, hv, [], rfl⟩
    | cons x o =>
      cases x with
      | none => exact .inr ⟨trivial, hv, o, rfl⟩
      | some e => exact .inl ⟨e, rfl⟩
  | write a =>
    have hn : (args a).isNull = false := by
      simp only [safe, Bool.or_eq_true] at h
      rcases h with h | h
      · cases hn : (args a).isNull with
        | false => rfl
        | true => exact absurd ((isNull_iff args a).1 hn) (hg (.null a) (by simpa using h))
      · exact hp (.ptr a) (by simpa using h)
    exact .inr ⟨trivial, hv, o, by simp [run, hn]⟩
  | use a ks =>
    simp only [safe, Bool.and_eq_true] at h
    have hd : (args a).noData = false := by
      obtain ⟨s, hs, hm⟩ := List.any_eq_true.1 h.2
      have := hp s hs
      cases s <;> simp only [Bool.false_eq_true, beq_iff_eq] at hm <;> subst hm <;> exact this
    have hu : (args a).unlike ks = false := by
      cases hu : (args a).unlike ks with
      | false => rfl
      | true =>
        rcases (unlike_iff args a ks).1 hu with hx | hx | hx
        · rw [(noData_iff args a).2 (.inl hx)] at hd; cases hd
        · rw [(noData_iff args a).2 (.inr hx)] at hd; cases hd
        · exact absurd hx (hg (.wrongKind a ks) (by simpa using h.1))
    exact .inr ⟨trivial, hv, o, by simp [run, hu]⟩

theorem covers_sound {args : Args} {gs : List Clause} (hg : ∀ g ∈ gs, ¬ Violates args g) (l : List Step) :
    ∀ (prev : List Step) (c : Clause) (o : List (Option Err)), (∀ s ∈ prev, Passed args s) →
      covers gs prev c l = true → Violates args c → ∃ e, run args l o = .err e := by
  induction l with
  | nil => intro prev c o _ h; cases h
  | cons s r ih =>
    intro prev c o hp h hv
    simp only [covers, Bool.or_eq_true, Bool.and_eq_true] at h
    rcases h with (h | h) | ⟨h, h'⟩
    · exact ⟨_, refutes_sound h hv r o⟩
    · exact ⟨_, refutesPart_sound hg h hv r o⟩
    · rcases step_sound hg hp h hv r o with he | ⟨h1, h2, o', h3⟩
      · exact he
      · rw [h3]
        refine ih (s :: prev) (rest s c) o' ?_ h' h2
        intro t ht
        rcases List.mem_cons.1 ht with rfl | ht
        · exact h1
        · exact hp t ht

/-- One of the clauses tells why the step refuses. -/
def explained (cs : List Clause) : Step → Bool
  | .obj a k => cs.contains (.notValid a [k])
  | .anyObj a => cs.any fun
    | .notValid b _ => a == b
    | _ => false
  | .given a => cs.contains (.noObject a)
  | .optObj a k => cs.contains (.notValidIfGiven a [k])
  | .ptr a => cs.contains (.null a)
  | .ary a n => cs.contains (.nullArray a n) || cs.contains (.null a)
  | .some as => cs.any fun
    | .allNull bs => bs.all fun b => as.contains b
    | _ => false
  | .nonzero n => cs.contains (.noCount n)
  | .ptrFor _ _ p => cs.contains (.null p)
  | _ => true

theorem explained_sound {args : Args} {cs : List Clause} (l : List Step) :
    (∀ s ∈ l, explained cs s = true) → ∀ e, run args l [] = .err e →
      ∃ c ∈ cs, Violates args c ∧ c.code = e := by
  induction l with
  | nil => intro _ e h; cases h
  | cons s r ih =>
    intro hl e h
    have hs := hl s (by simp)
    have ih := ih (fun t ht => hl t (by simp [ht])) e
    cases s with
    | obj a k =>
      cases hn : (args a).isNot k with
      | true =>
        simp only [run, hn, if_true, Out.err.injEq] at h
        exact ⟨.notValid a [k], by simpa [explained] using hs, (isNot_iff args a k).1 hn, h⟩
      | false => simp only [run, hn, Bool.false_eq_true, if_false] at h; exact ih h
    | anyObj a =>
      cases hn : (args a).noData with
      | true =>
        simp only [run, hn, if_true, Out.err.injEq] at h
        obtain ⟨c, hc, hm⟩ := List.any_eq_true.1 hs
        cases c <;> simp only [Bool.false_eq_true, beq_iff_eq] at hm
        subst hm
        refine ⟨_, hc, ?_, h⟩
        rcases (noData_iff args a).1 hn with hx | hx
        · exact .inl hx
        · exact .inr (.inl hx)
      | false => simp only [run, hn, Bool.false_eq_true, if_false] at h; exact ih h
    | optObj a k =>
      cases hn : (args a).isNull with
      | true => simp only [run, hn, if_true] at h; exact ih h
      | false =>
        cases hk : (args a).isNot k with
        | true =>
          simp only [run, hn, hk, Bool.false_eq_true, if_false, if_true, Out.err.injEq] at h
          refine ⟨.notValidIfGiven a [k], by simpa [explained] using hs, ⟨fun hx => ?_, (isNot_iff args a k).1 hk⟩, h⟩
          rw [(isNull_iff args a).2 hx] at hn; cases hn
        | false => simp only [run, hn, hk, Bool.false_eq_true, if_false] at h; exact ih h
    | given a =>
      cases hn : (args a).isNull with
      | true =>
        simp only [run, hn, if_true, Out.err.injEq] at h
        exact ⟨.noObject a, by simpa [explained] using hs, (isNull_iff args a).1 hn, h⟩
      | false => simp only [run, hn, Bool.false_eq_true, if_false] at h; exact ih h
    | ptr a =>
      cases hn : (args a).isNull with
      | true =>
        simp only [run, hn, if_true, Out.err.injEq] at h
        exact ⟨.null a, by simpa [explained] using hs, (isNull_iff args a).1 hn, h⟩
      | false => simp only [run, hn, Bool.false_eq_true, if_false] at h; exact ih h
    | ary a n =>
      cases hn : (!(args n).isZero && (args a).isNull) with
      | true =>
        simp only [run, hn, if_true, Out.err.injEq] at h
        rw [Bool.and_eq_true, Bool.not_eq_true'] at hn
        simp only [explained, Bool.or_eq_true] at hs
        rcases hs with hs | hs
        · refine ⟨.nullArray a n, by simpa using hs, ⟨(isNull_iff args a).1 hn.2, fun m hm h0 => ?_⟩, h⟩
          subst h0
          rw [(isZero_iff args n).2 hm] at hn
          cases hn.1
        · exact ⟨.null a, by simpa using hs, (isNull_iff args a).1 hn.2, h⟩
      | false => simp only [run, hn, Bool.false_eq_true, if_false] at h; exact ih h
    | some as =>
      cases hn : (as.all fun a => (args a).isNull) with
      | true =>
        simp only [run, hn, if_true, Out.err.injEq] at h
        obtain ⟨c, hc, hm⟩ := List.any_eq_true.1 hs
        cases c <;> simp only [Bool.false_eq_true] at hm
        refine ⟨_, hc, fun b hb => ?_, h⟩
        have hb := List.all_eq_true.1 hm b hb
        exact (isNull_iff args b).1 (List.all_eq_true.1 hn b (by simpa using hb))
      | false => simp only [run, hn, Bool.false_eq_true, if_false] at h; exact ih h
    | nonzero n =>
      cases hn : (args n).isZero with
      | true =>
        simp only [run, hn, if_true, Out.err.injEq] at h
        exact ⟨.noCount n, by simpa [explained] using hs, (isZero_iff args n).1 hn, h⟩
      | false => simp only [run, hn, Bool.false_eq_true, if_false] at h; exact ih h
    | stopZero n =>
      cases hn : (args n).isZero with
      | true => simp only [run, hn, if_true] at h; cases h
      | false => simp only [run, hn, Bool.false_eq_true, if_false] at h; exact ih h
    | ptrFor a ks p =>
      cases hn : ((args a).among ks && (args p).isNull) with
      | true =>
        simp only [run, hn, if_true, Out.err.injEq] at h
        rw [Bool.and_eq_true] at hn
        exact ⟨.null p, by simpa [explained] using hs, (isNull_iff args p).1 hn.2, h⟩
      | false => simp only [run, hn, Bool.false_eq_true, if_false] at h; exact ih h
    | may => exact ih h
    | write a =>
      cases hn : (args a).isNull with
      | true => simp only [run, hn, if_true] at h; cases h
      | false => simp only [run, hn, Bool.false_eq_true, if_false] at h; exact ih h
    | use a ks =>
      cases hn : (args a).unlike ks with
      | true => simp only [run, hn, if_true] at h; cases h
      | false => simp only [run, hn, Bool.false_eq_true, if_false] at h; exact ih h

end CCS.Api
