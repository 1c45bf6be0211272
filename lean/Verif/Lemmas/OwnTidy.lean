import Verif.Lemmas.OwnStep

/-! # Ownership: every object destroyed is freed, unless the user's `del` fails -/

namespace CCS.Own

open CCS

/-- What functions keep: nothing is left half destroyed and no `del` will fail, if so at first; no object
is modified but some, and no reference is used again. -/
structure Frame where
  flag : Prop
  base : Heap
  may : List Ref

/-- No object is left half destroyed, and no `del` will fail. -/
def Tidy (h : Heap) : Prop :=
  (∀ r, get h r ≠ .dying) ∧ ∀ r n o, get h r = .live n o → o.delRes = none

/-- Objects that exist existed, with the same fields. -/
def Framed (base : Heap) (may : List Ref) (h : Heap) : Prop :=
  base.length ≤ h.length ∧ ∀ r, r < base.length → r ∉ may → ∀ n o, get h r = .live n o →
    ∃ m o0, get base r = .live m o0 ∧ Same o0 o

structure Kept (F : Frame) (h : Heap) : Prop where
  tidy : F.flag → Tidy h
  framed : Framed F.base F.may h

/-- References of new objects. -/
def Frame.New (F : Frame) (r : Ref) : Prop := F.base.length ≤ r

variable {F : Frame}

/-- A function keeps this; `P` holds of its result. -/
def Tidies (F : Frame) (a : Act α) (P : α → Prop) : Prop :=
  ∀ h, Kept F h → match a h with
    | .ok x h' => Kept F h' ∧ P x
    | .err _ h' => Kept F h'
    | .ub => True

theorem Same.refl (o : Obj) : Same o o := .inl rfl

theorem Same.trans {a b c : Obj} (h1 : Same a b) (h2 : Same b c) : Same a c := by
  rcases h1 with rfl | ⟨cs, p, rfl, rfl⟩
  · exact h2
  · rcases h2 with rfl | ⟨cs', p', e, rfl⟩
    · exact .inr ⟨cs, p, rfl, rfl⟩
    · cases e; exact .inr ⟨cs, p, rfl, rfl⟩

/-- Whatever only loses objects. -/
theorem Framed.mono {base h h' : Heap} {may : List Ref} (k : Framed base may h) (hl : h.length ≤ h'.length)
    (e : ∀ r, r < base.length → r ∉ may → ∀ n o, get h' r = .live n o → ∃ m o0, get h r = .live m o0 ∧ Same o0 o) :
    Framed base may h' := by
  refine ⟨Nat.le_trans k.1 hl, fun r hr hm n o ho => ?_⟩
  obtain ⟨m, o0, h0, s0⟩ := e r hr hm n o ho
  obtain ⟨m', o1, h1, s1⟩ := k.2 r hr hm m o0 h0
  exact ⟨m', o1, h1, s1.trans s0⟩

theorem tidies_mono {a : Act α} {P Q : α → Prop} (ha : Tidies F a P) (q : ∀ x, P x → Q x) : Tidies F a Q := by
  intro h t
  have := ha h t
  cases hc : a h with
  | ok x h' => rw [hc] at this; exact ⟨this.1, q x this.2⟩
  | err e h' => rw [hc] at this; exact this
  | ub => trivial

theorem tidies_pure {x : α} {P : α → Prop} (p : P x) : Tidies F (pure x : Act α) P := fun _ t => ⟨t, p⟩

theorem tidies_fail {e : Err} {P : α → Prop} : Tidies F (fail e : Act α) P := fun _ t => t

theorem tidies_ub {P : α → Prop} : Tidies F (fun _ => .ub : Act α) P := fun _ _ => trivial

theorem tidies_verdict {v : Option Err} : Tidies F (verdict v) fun _ => True := by
  cases v with
  | none => exact tidies_pure trivial
  | some e => exact tidies_fail

theorem tidies_bind {a : Act α} {f : α → Act β} {P : α → Prop} {Q : β → Prop} (ha : Tidies F a P)
    (hf : ∀ x, P x → Tidies F (f x) Q) : Tidies F (a >>= f) Q := by
  intro h t
  show match Act.bind a f h with | .ok x h' => _ | .err _ h' => _ | .ub => _
  unfold Act.bind
  have := ha h t
  cases hc : a h with
  | ok x h' => rw [hc] at this; exact hf x this.2 h' this.1
  | err e h' => rw [hc] at this; exact this
  | ub => trivial

theorem tidies_retain {r : Ref} : Tidies F (retain r) fun _ => True := by
  intro h t
  unfold retain
  cases hc : get h r with
  | live n o =>
    dsimp only
    by_cases hn : n < 2 ^ 31 - 1
    · rw [if_pos hn]
      have hlt := lt_of_live hc
      refine ⟨⟨fun fl => ⟨fun x hx => ?_, fun x m q hx => ?_⟩,
        t.framed.mono (by simp) fun x _ _ m q hx => ?_⟩, trivial⟩
      · by_cases e : x = r
        · subst e; rw [get_set_self _ hlt] at hx; exact nomatch hx
        · rw [get_set_ne _ e] at hx; exact (t.tidy fl).1 x hx
      · by_cases e : x = r
        · subst e; rw [get_set_self _ hlt] at hx; cases hx; exact (t.tidy fl).2 x n o hc
        · rw [get_set_ne _ e] at hx; exact (t.tidy fl).2 x m q hx
      · by_cases e : x = r
        · subst e; rw [get_set_self _ hlt] at hx; cases hx; exact ⟨n, _, hc, .refl _⟩
        · rw [get_set_ne _ e] at hx; exact ⟨m, q, hx, .refl _⟩
    · rw [if_neg hn]; trivial
  | dying => exact t
  | freed => trivial

theorem drain_tidy : ∀ (fuel : Nat) (h : Heap) (ts : List Task) (h' : Heap),
    drain fuel h ts = some h' → (∀ r, get h r = .dying → Task.free r ∈ ts) →
    (∀ r n o, get h r = .live n o → o.delRes = none) → Tidy h'
  | _, h, [], h', e, d, l => by
    simp only [drain, Option.some.injEq] at e
    subst e
    exact ⟨fun r hr => by simpa using d r hr, l⟩
  | 0, _, _ :: _, _, e, _, _ => nomatch e
  | fuel + 1, h, .release r :: ts, h', e, d, l => by
    rw [drain] at e
    cases hc : get h r with
    | live n o =>
      have hlt := lt_of_live hc
      rw [hc] at e
      dsimp only at e
      rw [l r n o hc] at e
      by_cases hn : n ≤ 1
      · rw [if_pos hn] at e
        refine drain_tidy fuel _ _ h' e (fun x hx => ?_) (fun x m q hx => ?_)
        · by_cases ex : x = r
          · subst ex; simp
          · rw [get_set_ne _ ex] at hx
            have := d x hx
            simp only [List.mem_cons, reduceCtorEq, false_or] at this
            simp [this]
        · by_cases ex : x = r
          · subst ex; rw [get_set_self _ hlt] at hx; exact nomatch hx
          · rw [get_set_ne _ ex] at hx; exact l x m q hx
      · rw [if_neg hn] at e
        refine drain_tidy fuel _ _ h' e (fun x hx => ?_) (fun x m q hx => ?_)
        · by_cases ex : x = r
          · subst ex; rw [get_set_self _ hlt] at hx; exact nomatch hx
          · rw [get_set_ne _ ex] at hx; simpa using d x hx
        · by_cases ex : x = r
          · subst ex; rw [get_set_self _ hlt] at hx; cases hx; exact l x n o hc
          · rw [get_set_ne _ ex] at hx; exact l x m q hx
    | dying =>
      rw [hc] at e
      exact drain_tidy fuel _ _ h' e (fun x hx => by simpa using d x hx) l
    | freed => rw [hc] at e; exact nomatch e
  | fuel + 1, h, .detach r :: ts, h', e, d, l => by
    rw [drain] at e
    have d' : ∀ x, get h x = .dying → Task.free x ∈ ts := fun x hx => by simpa using d x hx
    split at e
    · rename_i n cs p hc
      have hlt := lt_of_live hc
      refine drain_tidy fuel _ _ h' e (fun x hx => ?_) (fun x m q hx => ?_)
      · by_cases ex : x = r
        · subst ex; rw [get_set_self _ hlt] at hx; exact nomatch hx
        · rw [get_set_ne _ ex] at hx; exact d' x hx
      · by_cases ex : x = r
        · subst ex; rw [get_set_self _ hlt] at hx; cases hx; rfl
        · rw [get_set_ne _ ex] at hx; exact l x m q hx
    · exact nomatch e
    · exact drain_tidy fuel _ _ h' e d' l
    · exact nomatch e
  | fuel + 1, h, .free r :: ts, h', e, d, l => by
    rw [drain] at e
    have key : get h r ≠ .freed → drain fuel (h.set r .freed) ts = some h' → Tidy h' := by
      intro hf e
      have hlt : r < h.length := by
        rcases Nat.lt_or_ge r h.length with h1 | h1
        · exact h1
        · exact absurd (get_of_ge h1) hf
      refine drain_tidy fuel _ _ h' e (fun x hx => ?_) (fun x m q hx => ?_)
      · by_cases ex : x = r
        · subst ex; rw [get_set_self _ hlt] at hx; exact nomatch hx
        · rw [get_set_ne _ ex] at hx
          have := d x hx
          simp only [List.mem_cons, Task.free.injEq] at this
          exact this.resolve_left ex
      · by_cases ex : x = r
        · subst ex; rw [get_set_self _ hlt] at hx; exact nomatch hx
        · rw [get_set_ne _ ex] at hx; exact l x m q hx
    cases hc : get h r with
    | live n o => rw [hc] at e; exact key (by rw [hc]; simp) e
    | dying => rw [hc] at e; exact key (by rw [hc]; simp) e
    | freed => rw [hc] at e; exact nomatch e

theorem drain_framed : ∀ (fuel : Nat) (h : Heap) (ts : List Task) (h' : Heap),
    drain fuel h ts = some h' → h'.length = h.length ∧
      ∀ r n o, get h' r = .live n o → ∃ m o0, get h r = .live m o0 ∧ Same o0 o
  | _, h, [], h', e => by
    simp only [drain, Option.some.injEq] at e
    subst e
    exact ⟨rfl, fun r n o hr => ⟨n, o, hr, .refl _⟩⟩
  | 0, _, _ :: _, _, e => nomatch e
  | fuel + 1, h, t :: ts, h', e => by
    -- one cell changes, the rest is the rest
    have go : ∀ (r : Ref) (c : Cell) (ts' : List Task), r < h.length →
        (∀ n o, c = .live n o → ∃ m o0, get h r = .live m o0 ∧ Same o0 o) →
        drain fuel (h.set r c) ts' = some h' → h'.length = h.length ∧
          ∀ r n o, get h' r = .live n o → ∃ m o0, get h r = .live m o0 ∧ Same o0 o := by
      intro r c ts' hlt hc hd
      obtain ⟨h1, h2⟩ := drain_framed fuel _ _ h' hd
      refine ⟨by simpa using h1, fun x n o hx => ?_⟩
      obtain ⟨m, o0, h3, h4⟩ := h2 x n o hx
      by_cases ex : x = r
      · subst ex
        rw [get_set_self _ hlt] at h3
        obtain ⟨m', o1, h5, h6⟩ := hc m o0 h3
        exact ⟨m', o1, h5, h6.trans h4⟩
      · rw [get_set_ne _ ex] at h3
        exact ⟨m, o0, h3, h4⟩
    cases t with
    | release r =>
      rw [drain] at e
      cases hc : get h r with
      | live n o =>
        rw [hc] at e
        dsimp only at e
        by_cases hn : n ≤ 1
        · rw [if_pos hn] at e
          exact go r _ _ (lt_of_live hc) (fun _ _ hx => by cases hx) e
        · rw [if_neg hn] at e
          exact go r _ _ (lt_of_live hc) (fun _ _ hx => by cases hx; exact ⟨n, _, hc, .refl _⟩) e
      | dying => rw [hc] at e; exact drain_framed fuel _ _ h' e
      | freed => rw [hc] at e; exact nomatch e
    | detach r =>
      rw [drain] at e
      split at e
      · rename_i n cs p hc
        exact go r _ _ (lt_of_live hc)
          (fun _ _ hx => by cases hx; exact ⟨n, _, hc, .inr ⟨cs, p, rfl, rfl⟩⟩) e
      · exact nomatch e
      · exact drain_framed fuel _ _ h' e
      · exact nomatch e
    | free r =>
      rw [drain] at e
      have hlt : get h r ≠ .freed → r < h.length := by
        intro hf
        rcases Nat.lt_or_ge r h.length with h1 | h1
        · exact h1
        · exact absurd (get_of_ge h1) hf
      cases hc : get h r with
      | live n o =>
        rw [hc] at e
        exact go r _ _ (hlt (by rw [hc]; simp)) (fun _ _ hx => by cases hx) e
      | dying =>
        rw [hc] at e
        exact go r _ _ (hlt (by rw [hc]; simp)) (fun _ _ hx => by cases hx) e
      | freed => rw [hc] at e; exact nomatch e

theorem tidies_release {r : Ref} : Tidies F (release r) fun _ => True := by
  intro h t
  unfold release
  cases hc : get h r with
  | live n o =>
    dsimp only
    cases hd : drain (steps h) h [.release r] with
    | some h' =>
      dsimp only
      have k : Kept F h' := by
        refine ⟨fun fl => drain_tidy _ _ _ _ hd (fun x hx => absurd hx ((t.tidy fl).1 x)) (t.tidy fl).2, ?_⟩
        obtain ⟨h1, h2⟩ := drain_framed _ _ _ _ hd
        exact t.framed.mono (by omega) fun x _ _ m q hx => h2 x m q hx
      cases (if n ≤ 1 then o.delRes else none) with
      | none => exact ⟨k, trivial⟩
      | some e => exact k
    | none => trivial
  | dying => exact t
  | freed => trivial

theorem tidies_ignore {a : Act Unit} {P : Unit → Prop} (ha : Tidies F a P) : Tidies F (ignore a) fun _ => True := by
  intro h t
  have := ha h t
  unfold ignore
  cases hc : a h with
  | ok x h' => rw [hc] at this; exact ⟨this.1, trivial⟩
  | err e h' => rw [hc] at this; exact ⟨this, trivial⟩
  | ub => trivial

theorem tidies_releaseAll : ∀ (rs : List Ref), Tidies F (releaseAll rs) fun _ => True
  | [] => tidies_pure trivial
  | _ :: rs => tidies_bind (tidies_ignore tidies_release) fun _ _ => tidies_releaseAll rs

theorem tidies_orRelease {a : Act α} {P : α → Prop} (ha : Tidies F a P) (rs : List Ref) :
    Tidies F (orRelease a rs) P := by
  intro h t
  have := ha h t
  unfold orRelease
  cases hc : a h with
  | ok x h' => rw [hc] at this; exact this
  | err e h' =>
    rw [hc] at this
    have q := tidies_releaseAll rs h' this
    dsimp only
    cases hr : releaseAll rs h' with
    | ok x h'' => rw [hr] at q; exact q.1
    | err e h'' => rw [hr] at q; exact q
    | ub => trivial
  | ub => trivial

theorem tidies_alloc {o : Obj} (ho : F.flag → o.delRes = none) : Tidies F (alloc o) F.New := by
  intro h t
  refine ⟨⟨fun fl => ⟨fun x hx => ?_, fun x m q hx => ?_⟩,
    t.framed.mono (by simp) fun x hx _ m q hq => ?_⟩, t.framed.1⟩
  · rcases Nat.lt_trichotomy x h.length with h1 | h1 | h1
    · rw [get_append_lt _ h1] at hx; exact (t.tidy fl).1 x hx
    · subst h1; rw [get_append_self] at hx; exact nomatch hx
    · rw [get_of_ge (by simp; omega)] at hx; exact nomatch hx
  · rcases append_back hx with ⟨-, -, rfl⟩ | hx
    · exact ho fl
    · exact (t.tidy fl).2 x m q hx
  · rw [get_append_lt _ (Nat.lt_of_lt_of_le hx t.framed.1)] at hq
    exact ⟨m, q, hq, .refl _⟩

theorem tidies_load {r : Ref} : Tidies F (load r) fun o => F.flag → o.delRes = none := by
  intro h t
  unfold load
  cases hc : get h r with
  | live n o => exact ⟨t, fun fl => (t.tidy fl).2 r n o hc⟩
  | dying => trivial
  | freed => trivial

theorem tidies_store {r : Ref} {o : Obj} (hr : r ∈ F.may ∨ F.New r) (ho : F.flag → o.delRes = none) :
    Tidies F (store r o) fun _ => True := by
  intro h t
  unfold store
  cases hc : get h r with
  | live n q =>
    have hlt := lt_of_live hc
    refine ⟨⟨fun fl => ⟨fun x hx => ?_, fun x m q hx => ?_⟩,
      t.framed.mono (by simp) fun x hx hm m q hq => ?_⟩, trivial⟩
    · by_cases e : x = r
      · subst e; rw [get_set_self _ hlt] at hx; exact nomatch hx
      · rw [get_set_ne _ e] at hx; exact (t.tidy fl).1 x hx
    · by_cases e : x = r
      · subst e; rw [get_set_self _ hlt] at hx; cases hx; exact ho fl
      · rw [get_set_ne _ e] at hx; exact (t.tidy fl).2 x m q hx
    · by_cases e : x = r
      · subst e
        rcases hr with hr | hr
        · exact absurd hr hm
        · exact absurd hx (Nat.not_lt.2 hr)
      · rw [get_set_ne _ e] at hq; exact ⟨m, q, hq, .refl _⟩
  | dying => trivial
  | freed => trivial

theorem tidies_check {r : Ref} {k : Kind} : Tidies F (check r k) fun o => F.flag → o.delRes = none := by
  refine tidies_bind tidies_load fun o ho => ?_
  split
  · exact tidies_pure ho
  · exact tidies_fail

theorem tidies_checkAll {k : Kind} : ∀ (rs : List Ref), Tidies F (checkAll k rs) fun _ => True
  | [] => tidies_pure trivial
  | _ :: rs => tidies_bind tidies_check fun _ _ => tidies_checkAll rs

theorem tidies_retainAll : ∀ (rs : List Ref), Tidies F (retainAll rs) fun _ => True
  | [] => tidies_pure trivial
  | _ :: rs => tidies_bind tidies_retain fun _ _ => tidies_orRelease (tidies_retainAll rs) _

/-- Goes through a function. -/
macro "tidy_up" : tactic => `(tactic| repeat' first
  | (with_reducible exact tidies_fail) | (with_reducible exact tidies_verdict)
  | (with_reducible exact tidies_retain) | (with_reducible exact tidies_release)
  | (with_reducible exact tidies_check) | (with_reducible exact tidies_load)
  | (with_reducible exact tidies_checkAll _) | (with_reducible exact tidies_retainAll _)
  | (with_reducible exact tidies_releaseAll _)
  | (with_reducible exact tidies_ub)
  | (with_reducible exact tidies_ignore tidies_release)
  | (with_reducible exact tidies_ignore tidies_retain)
  | (with_reducible exact tidies_pure trivial)
  | (refine tidies_mono (tidies_alloc ?_) (fun _ _ => trivial); first | assumption | exact fun _ => rfl)
  | (refine tidies_store (.inl (by assumption)) ?_; first | assumption | exact fun _ => rfl)
  | (with_reducible refine tidies_orRelease ?_ _)
  | (with_reducible refine tidies_bind tidies_check (fun _ _ => ?_))
  | (with_reducible refine tidies_bind tidies_verdict (fun _ _ => ?_))
  | (with_reducible refine tidies_bind tidies_retain (fun _ _ => ?_))
  | (with_reducible refine tidies_bind (tidies_orRelease tidies_retain _) (fun _ _ => ?_))
  | (with_reducible refine tidies_bind (tidies_orRelease tidies_verdict _) (fun _ _ => ?_))
  | (with_reducible refine tidies_bind (tidies_orRelease
      (tidies_bind tidies_verdict fun _ _ => tidies_retain) _) (fun _ _ => ?_))
  | (with_reducible refine tidies_bind (tidies_ignore tidies_release) (fun _ _ => ?_))
  | (with_reducible refine tidies_bind (tidies_checkAll _) (fun _ _ => ?_))
  | (with_reducible refine tidies_bind (tidies_retainAll _) (fun _ _ => ?_))
  | (refine tidies_bind (tidies_store (.inl (by assumption)) (by first | assumption | exact fun _ => rfl)) (fun _ _ => ?_)))

theorem tidies_newLeaf (l : Leaf) (v : Option Err) : Tidies F (newLeaf l v) F.New :=
  tidies_bind tidies_verdict fun _ _ => tidies_alloc fun _ => by cases l <;> rfl

theorem tidies_newComposite (ps : List Ref) (v : Option Err) : Tidies F (newComposite ps v) fun _ => True := by
  unfold newComposite; tidy_up

theorem tidies_newVariable (p : Ref) : Tidies F (newVariable p) fun _ => True := by
  unfold newVariable; tidy_up

theorem tidies_checkOperands : ∀ (ns : List Operand), Tidies F (checkOperands ns) fun _ => True
  | [] => tidies_pure trivial
  | .object r :: ns => by
    refine tidies_bind tidies_load fun _ _ => ?_
    split
    · exact tidies_checkOperands ns
    · exact tidies_fail
  | .value _ :: ns => tidies_checkOperands ns

theorem tidies_takeOperands : ∀ (ns : List Operand), Tidies F (takeOperands ns) fun _ => True
  | [] => tidies_pure trivial
  | .object r :: ns => by
    have rest : ∀ e, Tidies F (do let es ← orRelease (takeOperands ns) [e]; pure (e :: es)) fun _ => True :=
      fun e => tidies_bind (tidies_orRelease (tidies_takeOperands ns) _) fun _ _ => tidies_pure trivial
    refine tidies_bind tidies_load fun o _ => ?_
    by_cases ho : o.kind = .expression
    · rw [if_pos ho]
      exact tidies_bind (tidies_bind tidies_retain fun _ _ => tidies_pure (P := fun _ => True) trivial) fun _ _ => rest _
    · rw [if_neg ho]
      exact tidies_bind (tidies_newVariable r) fun _ _ => rest _
  | .value v :: ns => by
    refine tidies_bind (tidies_newLeaf _ _) fun e _ => ?_
    exact tidies_bind (tidies_orRelease (tidies_takeOperands ns) _) fun _ _ => tidies_pure trivial

theorem tidies_defaults : ∀ (l : List (Nat × Option Err)), Tidies F (defaults l) fun _ => True
  | [] => tidies_pure trivial
  | (_, _) :: rest => tidies_bind (tidies_newLeaf _ _) fun _ _ =>
    tidies_bind (tidies_orRelease (tidies_defaults rest) _) fun _ _ => tidies_pure trivial

theorem tidies_newConfiguration (s : Ref) (v w : Option Err) :
    Tidies F (newConfiguration s v w) fun _ => True := by
  unfold newConfiguration; tidy_up

theorem tidies_newTreeConfiguration (s : Ref) : Tidies F (newTreeConfiguration s) fun _ => True := by
  unfold newTreeConfiguration; tidy_up

theorem tidies_addObjective (s e : Ref) (v : Option Err) (hm : s ∈ F.may) : Tidies F (addObjective s e v) fun _ => True := by
  refine tidies_bind tidies_check fun o ho => ?_
  refine tidies_bind tidies_check fun _ _ => ?_
  refine tidies_bind tidies_verdict fun _ _ => ?_
  cases o with
  | objectiveSpace ps os =>
    tidy_up
  | _ => exact tidies_ub

theorem tidies_addObjectives (s : Ref) (hm : s ∈ F.may) : ∀ (es : List (Ref × Option Err)),
    Tidies F (addObjectives s es) fun _ => True
  | [] => tidies_bind tidies_check fun _ _ => tidies_pure trivial
  | (_, _) :: es => tidies_bind (tidies_addObjective _ _ _ hm) fun _ _ => tidies_addObjectives s hm es

theorem tidies_sampleLoop (s : Ref) : ∀ (ds : List Draw) (todo : Nat) (c : Option Ref) (found : List Ref),
    Tidies F (sampleLoop s ds todo c found) fun _ => True
  | ds, 0, c, found => by
    have : sampleLoop s ds 0 c found = pure (none, found) := by cases ds <;> rfl
    rw [this]
    exact tidies_pure trivial
  | [], _ + 1, _, _ => tidies_pure trivial
  | d :: ds, todo + 1, c, found => by
    cases d with
    | hit =>
      cases c with
      | some c => exact tidies_sampleLoop s ds todo none _
      | none => exact tidies_bind (tidies_newConfiguration s none none) fun c _ =>
          tidies_sampleLoop s ds todo none _
    | miss =>
      cases c with
      | some c => exact tidies_sampleLoop s ds (todo + 1) _ _
      | none => exact tidies_bind (tidies_newConfiguration s none none) fun c _ =>
          tidies_sampleLoop s ds (todo + 1) _ _
    | error e =>
      have rest : ∀ c, Tidies F (do ignore (release c); pure (some e, found)) fun _ => True := fun c =>
        tidies_bind (tidies_ignore tidies_release) fun _ _ => tidies_pure trivial
      cases c with
      | some c => exact rest c
      | none => exact tidies_bind (tidies_newConfiguration s none none) fun c _ => rest c

theorem tidies_samples (s : Ref) (n : Nat) (ds : List Draw) : Tidies F (samples s n ds) fun _ => True :=
  tidies_bind tidies_check fun _ _ => tidies_sampleLoop _ _ _ _ _

theorem tidies_treeSamples (s : Ref) : ∀ (ds : List (Option Err)) (found : List Ref),
    Tidies F (treeSamples s ds found) fun _ => True
  | [], _ => tidies_bind tidies_check fun _ _ => tidies_pure trivial
  | none :: ds, _ => tidies_bind (tidies_newTreeConfiguration s) fun _ _ => tidies_treeSamples s ds _
  | some _ :: _, _ => tidies_bind tidies_check fun _ _ => tidies_pure trivial

theorem tidies_newOptima (cmp : Ref → Ref → Verdict4) (e : Ref) : ∀ (l : List Ref) (b : Bool),
    Tidies F (newOptima cmp e l b) fun _ => True
  | [], _ => tidies_pure trivial
  | _ :: xs, true => tidies_bind (tidies_newOptima cmp e xs true) fun _ _ => tidies_pure trivial
  | x :: xs, false => by
    refine tidies_bind tidies_load fun _ _ => ?_
    cases cmp e x with
    | better => exact tidies_newOptima cmp e xs false
    | error => exact tidies_newOptima cmp e xs true
    | worse => exact tidies_bind (tidies_newOptima cmp e xs true) fun _ _ => tidies_pure trivial
    | incomparable => exact tidies_bind (tidies_newOptima cmp e xs false) fun _ _ => tidies_pure trivial

theorem delRes_record {o : Obj} (h : o.delRes = none) (e : Ref) (opt : List Ref) :
    (o.record e opt).delRes = none := by
  cases o <;> first | rfl | exact h

theorem tidies_tell (cmp : Ref → Ref → Verdict4) (t : Ref) (hm : t ∈ F.may) : ∀ (es : List (Ref × Bool)),
    Tidies F (tell cmp t es) fun _ => True
  | [] => tidies_bind tidies_load fun _ _ => tidies_pure trivial
  | (e, good) :: es => by
    refine tidies_bind tidies_load fun o ho => ?_
    cases o.takes with
    | none => exact tidies_fail
    | some k =>
      refine tidies_bind tidies_check fun _ _ => ?_
      cases good with
      | false => exact tidies_tell cmp t hm es
      | true =>
        exact tidies_bind (tidies_ignore tidies_retain) fun _ _ =>
          tidies_bind (tidies_newOptima cmp e _ _) fun opt _ =>
            tidies_bind (tidies_store (.inl hm) fun fl => delRes_record (ho fl) e opt) fun _ _ => tidies_tell cmp t hm es

theorem tidies_ask (t : Ref) (n : Nat) (ds : List Draw) : Tidies F (ask t n ds) fun _ => True := by
  refine tidies_bind tidies_load fun o _ => ?_
  cases o with
  | tuner => exact tidies_samples _ _ _
  | featuresTuner => exact tidies_samples _ _ _
  | treeTuner => exact tidies_treeSamples _ _ _
  | _ => exact tidies_fail

theorem tidies_suggest (t : Ref) (pick : Option Nat) (ds : List Draw) :
    Tidies F (suggest t pick ds) fun _ => True := by
  refine tidies_bind tidies_load fun o _ => ?_
  cases pick.bind (o.optima[·]?) with
  | none => exact tidies_ask _ _ _
  | some e =>
    refine tidies_bind tidies_load fun ev _ => ?_
    cases ev.evaluated with
    | none => exact tidies_fail
    | some c => exact tidies_bind tidies_retain fun _ _ => tidies_pure trivial

theorem tidies_retainDat (d : Dat) : Tidies F (retainDat d) fun _ => True := by
  cases d with
  | obj r => exact tidies_retain
  | other n => exact tidies_pure trivial

theorem tidies_releaseDat (d : Dat) : Tidies F (releaseDat d) fun _ => True := by
  cases d with
  | obj r => exact tidies_ignore tidies_release
  | other n => exact tidies_pure trivial

theorem tidies_mapSet (m : Ref) (k v : Dat) (hm : m ∈ F.may) : Tidies F (mapSet m k v) fun _ => True := by
  refine tidies_bind tidies_check fun o _ => ?_
  have two : ∀ {a : Act Unit}, Tidies F a (fun _ => True) →
      Tidies F (do retainDat k; orRelease (retainDat v) k.refs; a) fun _ => True := fun ha =>
    tidies_bind (tidies_retainDat k) fun _ _ =>
      tidies_bind (tidies_orRelease (tidies_retainDat v) _) fun _ _ => ha
  cases o with
  | map es =>
    dsimp only
    cases es.find? (·.1 = k) with
    | none => exact two (tidies_store (.inl hm) fun _ => rfl)
    | some old =>
      dsimp only
      split
      · exact tidies_pure trivial
      · exact two (tidies_bind (tidies_store (.inl hm) fun _ => rfl) fun _ _ => tidies_bind (tidies_releaseDat _) fun _ _ =>
          tidies_bind (tidies_releaseDat _) fun _ _ => tidies_store (.inl hm) fun _ => rfl)
  | _ => exact tidies_ub

theorem tidies_mapDel (m : Ref) (k : Dat) (hm : m ∈ F.may) : Tidies F (mapDel m k) fun _ => True := by
  refine tidies_bind tidies_check fun o _ => ?_
  cases o with
  | map es =>
    dsimp only
    cases es.find? (·.1 = k) with
    | none => exact tidies_fail
    | some old =>
      exact tidies_bind (tidies_store (.inl hm) fun _ => rfl) fun _ _ => tidies_bind (tidies_releaseDat _) fun _ _ =>
        tidies_releaseDat _
  | _ => exact tidies_ub

theorem tidies_setChild (t : Ref) (i : Nat) (c : Ref) (hm : t ∈ F.may) (hc : c ∈ F.may ∨ F.New c) : Tidies F (setChild t i c) fun _ => True := by
  refine tidies_bind tidies_check fun o _ => ?_
  refine tidies_bind tidies_check fun oc _ => ?_
  cases o with
  | tree cs p =>
    cases oc with
    | tree ccs cp =>
      dsimp only
      cases cs[i]? with
      | none => exact tidies_fail
      | some x =>
        cases x with
        | some x => exact tidies_fail
        | none =>
          cases cp with
          | some x => exact tidies_fail
          | none =>
            exact tidies_bind tidies_retain fun _ _ => tidies_bind (tidies_store hc fun _ => rfl) fun _ _ =>
              tidies_store (.inl hm) fun _ => rfl
    | _ => exact tidies_ub
  | _ => exact tidies_ub

theorem tidies_dynamicChild (t : Ref) (i : Nat) (cb : Callback) (hm : t ∈ F.may)
    (hc : ∀ r, cb = .gives r → r ∈ F.may) :
    Tidies F (dynamicChild t i cb) fun _ => True := by
  refine tidies_bind tidies_check fun o _ => ?_
  have rest : ∀ c, c ∈ F.may ∨ F.New c → Tidies F (do setChild t i c; release c) fun _ => True := fun c hc =>
    tidies_bind (tidies_setChild t i c hm hc) fun _ _ => tidies_release
  cases o with
  | tree cs p =>
    dsimp only
    cases cs[i]? with
    | none => exact tidies_fail
    | some x =>
      cases x with
      | some x => exact tidies_pure trivial
      | none =>
        cases cb with
        | fails e => exact tidies_bind (P := F.New) tidies_fail fun _ q => rest _ (.inr q)
        | fresh n => exact tidies_bind (tidies_newLeaf _ _) fun _ q => rest _ (.inr q)
        | gives r => exact tidies_bind (tidies_pure (P := fun c => c ∈ F.may) (hc r rfl)) fun _ q => rest _ (.inl q)
  | _ => exact tidies_ub

theorem tidies_one {a : Act Ref} {P : Ref → Prop} (h : Tidies F a P) : Tidies F (one a) fun _ => True :=
  tidies_bind h fun _ _ => tidies_pure trivial

theorem tidies_unit {a : Act Unit} {P : Unit → Prop} (h : Tidies F a P) : Tidies F (unit a) fun _ => True :=
  tidies_bind h fun _ _ => tidies_pure trivial

theorem tidies_newTuner {cs os : Ref} {o : Obj} (h : F.flag → o.delRes = none) :
    Tidies F (newTuner cs os o) fun _ => True := by
  unfold newTuner; tidy_up

theorem tidies_newFeaturesTuner {cs os fs : Ref} {o : Obj} (h : F.flag → o.delRes = none) :
    Tidies F (newFeaturesTuner cs os fs o) fun _ => True := by
  unfold newFeaturesTuner; tidy_up

theorem tidies_newTreeTuner {cs os : Ref} {o : Obj} (h : F.flag → o.delRes = none) :
    Tidies F (newTreeTuner cs os o) fun _ => True := by
  unfold newTreeTuner; tidy_up

theorem tidies_newTreeSpace {t : Ref} {o : Ref → Obj} (h : ∀ g, F.flag → (o g).delRes = none) :
    Tidies F (newTreeSpace t o) F.New :=
  tidies_bind tidies_check fun _ _ => tidies_bind (tidies_alloc fun _ => rfl) fun _ _ =>
    tidies_bind (tidies_orRelease tidies_retain _) fun _ _ => tidies_alloc (h _)

theorem tidies_setTreeRng (s g : Ref) (hm : s ∈ F.may) : Tidies F (setTreeRng s g) fun _ => True := by
  refine tidies_bind tidies_check fun o ho => ?_
  refine tidies_bind tidies_check fun _ _ => ?_
  cases o with
  | treeSpace old t => tidy_up
  | dynamicTreeSpace old t d =>
    exact tidies_bind tidies_retain fun _ _ => tidies_bind (tidies_store (.inl hm) ho) fun _ _ => tidies_release
  | _ => exact tidies_ub

theorem tidies_addParameter (s p : Ref) (d : Option Ref) (v w : Option Err) (hm : s ∈ F.may) :
    Tidies F (addParameter s p d v w) fun _ => True := by
  refine tidies_bind tidies_check fun o ho => ?_
  refine tidies_bind tidies_check fun _ _ => ?_
  refine tidies_bind tidies_verdict fun _ _ => ?_
  cases o with
  | configurationSpace g ps cl ds =>
    refine tidies_bind tidies_retain fun _ _ => ?_
    refine tidies_bind (tidies_orRelease (P := fun _ => True) ?_ _) fun _ _ => tidies_store (.inl hm) fun _ => rfl
    cases d with
    | none => exact tidies_mono (tidies_newLeaf _ _) fun _ _ => trivial
    | some d => tidy_up
  | _ => exact tidies_ub

theorem tidies_setDistribution (s d : Ref) (is : List Nat) (v : Option Err) (w : Nat → Option Err) (hm : s ∈ F.may) :
    Tidies F (setDistribution s d is v w) fun _ => True := by
  refine tidies_bind tidies_check fun o ho => ?_
  refine tidies_bind tidies_check fun _ _ => ?_
  refine tidies_bind tidies_verdict fun _ _ => ?_
  cases o with
  | configurationSpace g ps cl ds =>
    exact tidies_bind tidies_retain fun _ _ => tidies_bind (tidies_orRelease (tidies_defaults _) _) fun _ _ =>
      tidies_bind (tidies_store (.inl hm) fun _ => rfl) fun _ _ => tidies_releaseAll _
  | _ => exact tidies_ub

theorem tidies_setCondition (s : Ref) (i : Nat) (e : Ref) (v : Option Err) (hm : s ∈ F.may) :
    Tidies F (setCondition s i e v) fun _ => True := by
  refine tidies_bind tidies_check fun o ho => ?_
  refine tidies_bind tidies_check fun _ _ => ?_
  cases o with
  | configurationSpace g ps cl ds =>
    dsimp only
    cases ps[i]? with
    | none => exact tidies_fail
    | some x =>
      obtain ⟨p, q⟩ := x
      cases q with
      | some q => exact tidies_fail
      | none =>
        refine tidies_bind tidies_retain fun _ _ => tidies_bind (tidies_store (.inl hm) fun _ => rfl) fun _ _ => ?_
        cases v with
        | none => exact tidies_pure trivial
        | some err => tidy_up
  | _ => exact tidies_ub

theorem tidies_setRng (s g : Ref) (hm : s ∈ F.may) : Tidies F (setRng s g) fun _ => True := by
  refine tidies_bind tidies_check fun o ho => ?_
  refine tidies_bind tidies_check fun _ _ => ?_
  cases o with
  | configurationSpace old ps cl ds =>
    tidy_up
  | _ => exact tidies_ub

theorem tidies_addFeature (s p : Ref) (v : Option Err) (hm : s ∈ F.may) : Tidies F (addFeature s p v) fun _ => True := by
  refine tidies_bind tidies_check fun o ho => ?_
  refine tidies_bind tidies_check fun _ _ => ?_
  refine tidies_bind tidies_verdict fun _ _ => ?_
  cases o with
  | featuresSpace ps =>
    tidy_up
  | _ => exact tidies_ub

theorem tidies_addObjectiveParameter (s p : Ref) (v : Option Err) (hm : s ∈ F.may) :
    Tidies F (addObjectiveParameter s p v) fun _ => True := by
  refine tidies_bind tidies_check fun o ho => ?_
  refine tidies_bind tidies_check fun _ _ => ?_
  refine tidies_bind tidies_verdict fun _ _ => ?_
  cases o with
  | objectiveSpace ps os =>
    tidy_up
  | _ => exact tidies_ub

theorem tidies_addClause (s e : Ref) (v w x : Option Err) (hm : s ∈ F.may) : Tidies F (addClause s e v w x) fun _ => True := by
  refine tidies_bind tidies_check fun o ho => ?_
  refine tidies_bind tidies_check fun _ _ => ?_
  refine tidies_bind tidies_verdict fun _ _ => ?_
  cases o with
  | configurationSpace g ps cl ds =>
    refine tidies_bind (tidies_newConfiguration _ _ _) fun _ _ => ?_
    tidy_up
  | _ => exact tidies_ub

theorem tidies_sample (s : Ref) (d : Draw) : Tidies F (sample s d) fun _ => True := by
  refine tidies_bind (tidies_newConfiguration _ _ _) fun _ _ => ?_
  refine tidies_bind (tidies_orRelease (P := fun _ => True) ?_ _) fun _ _ => tidies_pure trivial
  cases d with
  | hit => exact tidies_pure trivial
  | miss => exact tidies_fail
  | error e => exact tidies_fail

/-- What the user's `del` answers, for the objects that have one. -/
theorem tidies_act {op : Op} (h : F.flag → op.userDel = none) (hm : ∀ r ∈ op.targets, r ∈ F.may) : Tidies F op.act fun _ => True := by
  cases op with
  | retain r => exact tidies_bind tidies_retain fun _ _ => tidies_pure trivial
  | release r => exact tidies_unit tidies_release
  | leaf l v => exact tidies_one (tidies_newLeaf l v)
  | composite ps v => exact tidies_one (tidies_newComposite ps v)
  | var p => exact tidies_one (tidies_newVariable p)
  | expression ns v =>
    exact tidies_one (tidies_bind tidies_verdict fun _ _ => tidies_bind (tidies_checkOperands ns) fun _ _ =>
      tidies_bind (tidies_takeOperands ns) fun _ _ => tidies_alloc fun _ => rfl)
  | configurationSpace =>
    exact tidies_one (tidies_bind (tidies_alloc fun _ => rfl) fun _ _ => tidies_alloc fun _ => rfl)
  | configuration c v w => exact tidies_one (tidies_newConfiguration c v w)
  | features c v w => exact tidies_one (P := fun _ => True) (by unfold newFeatures; tidy_up)
  | evaluation os c v w => exact tidies_one (P := fun _ => True) (by unfold newEvaluation; tidy_up)
  | featuresEvaluation os c g v w =>
    exact tidies_one (P := fun _ => True) (by unfold newFeaturesEvaluation; tidy_up)
  | treeEvaluation os c v w => exact tidies_one (P := fun _ => True) (by unfold newTreeEvaluation; tidy_up)
  | tuner cs os => exact tidies_one (tidies_newTuner fun _ => rfl)
  | userTuner cs os d => exact tidies_one (tidies_newTuner h)
  | featuresTuner cs os fs => exact tidies_one (tidies_newFeaturesTuner fun _ => rfl)
  | userFeaturesTuner cs os fs d => exact tidies_one (tidies_newFeaturesTuner h)
  | treeTuner ts os => exact tidies_one (tidies_newTreeTuner fun _ => rfl)
  | userTreeTuner ts os d => exact tidies_one (tidies_newTreeTuner h)
  | treeSpace t => exact tidies_one (tidies_newTreeSpace fun _ _ => rfl)
  | dynamicTreeSpace t d => exact tidies_one (tidies_newTreeSpace fun _ => h)
  | treeConfiguration c => exact tidies_one (tidies_newTreeConfiguration c)
  | setRng c g => exact tidies_unit (tidies_setRng c g (hm c (by simp [Op.targets])))
  | setTreeRng c g => exact tidies_unit (tidies_setTreeRng c g (hm c (by simp [Op.targets])))
  | addParameter c p d v w => exact tidies_unit (tidies_addParameter c p d v w (hm c (by simp [Op.targets])))
  | setDistribution c d is v w => exact tidies_unit (tidies_setDistribution c d is v w (hm c (by simp [Op.targets])))
  | setCondition c i e v => exact tidies_unit (tidies_setCondition c i e v (hm c (by simp [Op.targets])))
  | addClause c e v w x => exact tidies_unit (tidies_addClause c e v w x (hm c (by simp [Op.targets])))
  | addFeature c p v => exact tidies_unit (tidies_addFeature c p v (hm c (by simp [Op.targets])))
  | addObjectiveParameter c p v => exact tidies_unit (tidies_addObjectiveParameter c p v (hm c (by simp [Op.targets])))
  | addObjective c e v => exact tidies_unit (tidies_addObjective c e v (hm c (by simp [Op.targets])))
  | addObjectives c es => exact tidies_unit (tidies_addObjectives c (hm c (by simp [Op.targets])) es)
  | sample c d => exact tidies_one (tidies_sample c d)
  | samples c n ds => exact tidies_samples c n ds
  | treeSamples c ds => exact tidies_treeSamples c ds []
  | ask t n ds => exact tidies_ask t n ds
  | tell cmp t es => exact tidies_unit (tidies_tell cmp t (hm t (by simp [Op.targets])) es)
  | suggest t pick ds => exact tidies_suggest t pick ds
  | mapSet m k v => exact tidies_unit (tidies_mapSet m k v (hm m (by simp [Op.targets])))
  | mapDel m k => exact tidies_unit (tidies_mapDel m k (hm m (by simp [Op.targets])))
  | setChild t i c => exact tidies_unit (tidies_setChild t i c (hm t (by simp [Op.targets])) (.inl (hm c (by simp [Op.targets]))))
  | dynamicChild t i cb => 
    refine tidies_unit (tidies_dynamicChild t i cb (hm t ?_) fun r hr => hm r ?_)
    · cases cb <;> simp [Op.targets]
    · subst hr; simp [Op.targets]

end CCS.Own
