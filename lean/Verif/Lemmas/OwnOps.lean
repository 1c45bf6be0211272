import Verif.Lemmas.Own

/-! # Ownership: the operations -/

namespace CCS.Own

open CCS

/-! ## The invariant and the primitives -/

/-- What an object expects the kind of, it owns. -/
theorem mem_holds_of_wants {o : Obj} {x : Ref} {k : Kind} (h : (x, k) ∈ o.wants) : x ∈ o.holds := by
  cases o <;> simp only [Obj.wants, Obj.holds, List.mem_cons, List.mem_append, List.mem_map,
    Prod.mk.injEq, List.not_mem_nil] at h ⊢ <;> grind

theorem Full.perm {h : Heap} {a b : List Ref} (f : Full h a) (e : ∀ x, a.count x = b.count x) :
    Full h b where
  counted := by intro r; have := f.counted r; rw [e r] at this; exact this
  typed := f.typed
  borrowed := f.borrowed
  linked := f.linked
  ranked := f.ranked

theorem Full.alive {h : Heap} {ext : List Ref} (f : Full h ext) {r : Ref} (hr : r ∈ ext) :
    Alive h r := by
  have := f.counted r
  have h0 : 0 < ext.count r := List.count_pos_iff.2 hr
  cases hc : get h r with
  | live n o => exact ⟨n, o, hc⟩
  | dying => rw [hc] at this; dsimp only at this; omega
  | freed => rw [hc] at this; dsimp only at this; omega

theorem Full.alive_field {h : Heap} {ext : List Ref} (f : Full h ext) {r x : Ref} {n : Nat} {o : Obj}
    (hr : get h r = .live n o) (hx : x ∈ o.holds) : Alive h x := by
  have := f.counted x
  have h0 := refs_le_stored hr x
  have h1 : 0 < o.holds.count x := List.count_pos_iff.2 hx
  cases hc : get h x with
  | live n o => exact ⟨n, o, hc⟩
  | dying => rw [hc] at this; dsimp only at this; omega
  | freed => rw [hc] at this; dsimp only at this; omega

theorem Full.pos {h : Heap} {ext : List Ref} (f : Full h ext) {r : Ref} {n : Nat} {o : Obj}
    (hr : get h r = .live n o) : 0 < n := by
  have := f.counted r
  rw [hr] at this
  exact this.1

theorem Full.reach {h : Heap} {ext ext' : List Ref} (f : Full h ext) (hs : ∀ x ∈ ext', x ∈ ext)
    {r : Ref} (hr : Reach h ext' r) : Alive h r := by
  induction hr with
  | own hr => exact f.alive (hs _ hr)
  | field _ hx hr _ => exact f.alive_field hx hr

/-- Objects still exist, with the same fields. -/
def Keeps (h h' : Heap) : Prop := ∀ r n o, get h r = .live n o → ∃ m, get h' r = .live m o

theorem Keeps.refl (h : Heap) : Keeps h h := fun _ n _ hr => ⟨n, hr⟩

theorem Keeps.trans {a b c : Heap} (h1 : Keeps a b) (h2 : Keeps b c) : Keeps a c := by
  intro r n o hr
  obtain ⟨m, hm⟩ := h1 r n o hr
  exact h2 r m o hm

theorem Keeps.alive {h h' : Heap} (k : Keeps h h') {r : Ref} (a : Alive h r) : Alive h' r := by
  obtain ⟨n, o, hr⟩ := a
  obtain ⟨m, hm⟩ := k r n o hr
  exact ⟨m, o, hm⟩

/-- Counts can still grow by `k`. -/
def Room (h : Heap) (k : Nat) : Prop :=
  k < 2 ^ 31 - 1 ∧ ∀ r n o, get h r = .live n o → n + k < 2 ^ 31

theorem Room.mono {h : Heap} {k l : Nat} (r : Room h k) (e : l ≤ k) : Room h l :=
  ⟨by have := r.1; omega, fun x n o hx => by have := r.2 x n o hx; omega⟩

/-- One more reference on an object. -/
def bump (h : Heap) (r : Ref) : Heap :=
  match get h r with
  | .live n o => h.set r (.live (n + 1) o)
  | _ => h

theorem bump_eq {h : Heap} {r : Ref} {n : Nat} {o : Obj} (hr : get h r = .live n o) :
    bump h r = h.set r (.live (n + 1) o) := by unfold bump; rw [hr]

theorem length_bump (h : Heap) (r : Ref) : (bump h r).length = h.length := by
  unfold bump
  split <;> simp

theorem get_bump_self {h : Heap} {r : Ref} {n : Nat} {o : Obj} (hr : get h r = .live n o) :
    get (bump h r) r = .live (n + 1) o := by
  rw [bump_eq hr, get_set_self _ (lt_of_live hr)]

theorem get_bump_ne {h : Heap} {r x : Ref} (hx : x ≠ r) : get (bump h r) x = get h x := by
  unfold bump
  split
  · exact get_set_ne _ hx
  · rfl

theorem keeps_bump (h : Heap) (r : Ref) : Keeps h (bump h r) := by
  intro x n o hx
  by_cases e : x = r
  · subst e; exact ⟨n + 1, get_bump_self hx⟩
  · exact ⟨n, by rw [get_bump_ne e]; exact hx⟩

theorem bump_back {h : Heap} {r x : Ref} {m : Nat} {o : Obj} (hx : get (bump h r) x = .live m o) :
    ∃ n, get h x = .live n o ∧ m ≤ n + 1 := by
  by_cases e : x = r
  · subst e
    cases hr : get h x with
    | live n o' =>
      rw [get_bump_self hr] at hx
      cases hx
      exact ⟨n, rfl, Nat.le_refl _⟩
    | dying => unfold bump at hx; rw [hr] at hx; exact absurd (hr.symm.trans hx) (by simp)
    | freed => unfold bump at hx; rw [hr] at hx; exact absurd (hr.symm.trans hx) (by simp)
  · rw [get_bump_ne e] at hx; exact ⟨m, hx, by omega⟩

theorem room_bump {h : Heap} {k : Nat} (r : Ref) (hr : Room h (k + 1)) : Room (bump h r) k := by
  refine ⟨by have := hr.1; omega, fun x n o hx => ?_⟩
  obtain ⟨m, hm, hle⟩ := bump_back hx
  have := hr.2 x m o hm
  omega

theorem stored_bump (h : Heap) (r x : Ref) : stored (bump h r) x = stored h x := by
  cases hr : get h r with
  | live n o =>
    rw [bump_eq hr]
    have := stored_set (.live (n + 1) o) x (lt_of_live hr)
    rw [hr] at this
    simp only [Cell.refs] at this
    omega
  | dying => unfold bump; rw [hr]
  | freed => unfold bump; rw [hr]

/-- What does not depend on counts. -/
theorem same_objects {h h' : Heap} (back : ∀ r n o, get h' r = .live n o → ∃ m, get h r = .live m o)
    (fwd : Keeps h h') {E : List Ref} (f : Full h E) :
    Typed h' ∧ Borrowed h' ∧ Linked h' ∧ Ranked h' := by
  refine ⟨?_, ?_, ⟨?_, ?_⟩, ?_⟩
  · intro r n o hr x k hx m o' hx'
    obtain ⟨n', hr'⟩ := back _ _ _ hr
    obtain ⟨m', hm'⟩ := back _ _ _ hx'
    exact f.typed r n' o hr' x k hx m' o' hm'
  · intro r n o hr
    obtain ⟨n', hr'⟩ := back _ _ _ hr
    exact f.borrowed r n' o hr'
  · intro c n cs t hc
    obtain ⟨n', hc'⟩ := back _ _ _ hc
    obtain ⟨m, cs', p, ht, hm⟩ := f.linked.up c n' cs t hc'
    obtain ⟨m', hm'⟩ := fwd _ _ _ ht
    exact ⟨m', cs', p, hm', hm⟩
  · intro t n cs p c m cs' q ht hc hcc
    obtain ⟨n', ht'⟩ := back _ _ _ ht
    obtain ⟨m', hm'⟩ := back _ _ _ hcc
    exact f.linked.down t n' cs p c m' cs' q ht' hc hm'
  · obtain ⟨rank, hb⟩ := f.ranked
    refine ⟨rank, fun x n o hx => ?_⟩
    obtain ⟨n', hx'⟩ := back _ _ _ hx
    exact hb x n' o hx'

theorem Full.bump {h : Heap} {E : List Ref} {r : Ref} (f : Full h E) (a : Alive h r) :
    Full (bump h r) (r :: E) := by
  obtain ⟨n, o, hr⟩ := a
  obtain ⟨t, b, l, rk⟩ := same_objects (fun x m o' hx => by
    obtain ⟨k, hk, -⟩ := bump_back hx; exact ⟨k, hk⟩) (keeps_bump h r) f
  refine ⟨fun x => ?_, t, b, l, rk⟩
  have := f.counted x
  rw [stored_bump]
  by_cases e : x = r
  · subst e
    rw [get_bump_self hr]
    rw [hr] at this
    simp only [List.count_cons_self] at this ⊢
    omega
  · rw [get_bump_ne e, List.count_cons_of_ne (Ne.symm e)]
    exact this

theorem le_sum_of_mem {a : Nat} : ∀ {l : List Nat}, a ∈ l → a ≤ l.sum
  | b :: l, h => by
    rw [List.sum_cons]
    rcases List.mem_cons.1 h with rfl | h
    · omega
    · have := le_sum_of_mem h; omega

/-- A new object takes over references. -/
theorem Full.alloc {h : Heap} {E F : List Ref} {o : Obj} (f : Full h F)
    (e : ∀ x, F.count x = o.holds.count x + E.count x)
    (w : ∀ x k, (x, k) ∈ o.wants → x < h.length ∧ ∀ m o', get h x = .live m o' → o'.kind = k)
    (b : ∀ x ∈ o.optima, x ∈ o.history)
    (t : ∀ cs p, o = .tree cs p → p = none ∧ ∀ c, some c ∉ cs) :
    Full (h ++ [.live 1 o]) (h.length :: E) := by
  have hnew := get_append_self h (.live 1 o)
  have hold : ∀ x, x ≠ h.length → get (h ++ [.live 1 o]) x = get h x := by
    intro x hx
    rcases Nat.lt_or_ge x h.length with hlt | hge
    · exact get_append_lt _ hlt
    · rw [get_of_ge hge, get_of_ge (by simp; omega)]
  have hz : F.count h.length = 0 ∧ stored h h.length = 0 := by
    have := f.counted h.length
    rw [get_of_ge (Nat.le_refl _)] at this
    exact this
  have he := e h.length
  refine ⟨fun x => ?_, ?_, ?_, ⟨?_, ?_⟩, ?_⟩
  · have h1 := f.counted x
    have h2 := e x
    rw [stored_append]
    by_cases ex : x = h.length
    · subst ex
      rw [hnew]
      simp only [Cell.refs, List.count_cons_self]
      omega
    · rw [hold x ex, List.count_cons_of_ne (Ne.symm ex)]
      simp only [Cell.refs]
      cases hc : get h x with
      | live n o' => rw [hc] at h1; dsimp only at h1 ⊢; omega
      | dying => rw [hc] at h1; dsimp only at h1 ⊢; omega
      | freed => rw [hc] at h1; dsimp only at h1 ⊢; omega
  · intro r n o' hr x k hx m o'' hx'
    by_cases er : r = h.length
    · subst er
      rw [hnew] at hr
      cases hr
      obtain ⟨hlt, hw⟩ := w x k hx
      rw [hold x (Nat.ne_of_lt hlt)] at hx'
      exact hw m o'' hx'
    · rw [hold r er] at hr
      by_cases ex : x = h.length
      · -- no object refers to what does not exist
        exfalso
        subst ex
        have hin : h.length ∈ o'.holds := mem_holds_of_wants hx
        have := refs_le_stored hr h.length
        have h0 : 0 < o'.holds.count h.length := List.count_pos_iff.2 hin
        omega
      · rw [hold x ex] at hx'
        exact f.typed r n o' hr x k hx m o'' hx'
  · intro r n o' hr
    by_cases er : r = h.length
    · subst er; rw [hnew] at hr; cases hr; exact b
    · rw [hold r er] at hr; exact f.borrowed r n o' hr
  · intro c n cs p hc
    by_cases ec : c = h.length
    · subst ec; rw [hnew] at hc; cases hc; exact absurd (t cs _ rfl).1 (by simp)
    · rw [hold c ec] at hc
      obtain ⟨m, cs', q, h1, h2⟩ := f.linked.up c n cs p hc
      exact ⟨m, cs', q, by rw [get_append_lt _ (lt_of_live h1)]; exact h1, h2⟩
  · intro x n cs p c m cs' q hx hc hcc
    by_cases ex : x = h.length
    · subst ex; rw [hnew] at hx; cases hx; exact absurd hc ((t cs p rfl).2 c)
    · rw [hold x ex] at hx
      by_cases ec : c = h.length
      · exfalso
        subst ec
        have := refs_le_stored hx h.length
        have h0 : 0 < (Obj.tree cs p).holds.count h.length :=
          List.count_pos_iff.2 (List.mem_filterMap.2 ⟨_, hc, rfl⟩)
        omega
      · rw [hold c ec] at hcc
        exact f.linked.down x n cs p c m cs' q hx hc hcc
  · obtain ⟨rank, hb⟩ := f.ranked
    refine ⟨fun x => if x = h.length then (o.holds.map rank).sum + 1 else rank x, fun x n o' hx hn y hy => ?_⟩
    by_cases ex : x = h.length
    · subst ex
      rw [hnew] at hx
      cases hx
      have h0 : 0 < o.holds.count y := List.count_pos_iff.2 hy
      have hy' : y ≠ h.length := by
        intro ey; subst ey; omega
      dsimp only
      rw [if_neg hy', if_pos rfl]
      exact Nat.lt_succ_of_le (le_sum_of_mem (List.mem_map_of_mem hy))
    · rw [hold x ex] at hx
      have hy' : y ≠ h.length := by
        intro ey; subst ey
        have := refs_le_stored hx h.length
        have h0 : 0 < o'.holds.count h.length := List.count_pos_iff.2 hy
        omega
      dsimp only
      rw [if_neg hy', if_neg ex]
      exact hb x n o' hx hn y hy

theorem keeps_append (h : Heap) (c : Cell) : Keeps h (h ++ [c]) :=
  fun _ n _ hr => ⟨n, by rw [get_append_lt _ (lt_of_live hr)]; exact hr⟩

theorem append_back {h : Heap} {o : Obj} {k : Nat} {x : Ref} {m : Nat} {o' : Obj}
    (hx : get (h ++ [.live k o]) x = .live m o') :
    (x = h.length ∧ m = k ∧ o' = o) ∨ get h x = .live m o' := by
  rcases Nat.lt_trichotomy x h.length with hlt | he | hgt
  · rw [get_append_lt _ hlt] at hx; exact .inr hx
  · subst he
    rw [get_append_self] at hx
    cases hx
    exact .inl ⟨rfl, rfl, rfl⟩
  · rw [get_of_ge (by simp; omega)] at hx; exact nomatch hx

theorem room_append {h : Heap} {k : Nat} (o : Obj) (hr : Room h k) : Room (h ++ [.live 1 o]) k := by
  refine ⟨hr.1, fun x n o' hx => ?_⟩
  rcases append_back hx with ⟨-, rfl, -⟩ | hx
  · have := hr.1; omega
  · exact hr.2 x n o' hx

/-- An object exchanges references with the caller. -/
theorem Full.store {h : Heap} {E F : List Ref} {r : Ref} {n : Nat} {o o' : Obj} (f : Full h F)
    (hr : get h r = .live n o)
    (e : ∀ x, F.count x + o.holds.count x = o'.holds.count x + E.count x)
    (hk : o'.kind = o.kind) (hn : o'.nested = false)
    (w : ∀ x k, (x, k) ∈ o'.wants → ∀ m o'', get h x = .live m o'' → o''.kind = k)
    (b : ∀ x ∈ o'.optima, x ∈ o'.history) :
    Full (h.set r (.live n o')) E := by
  have hlt := lt_of_live hr
  have hnt : o.kind ≠ .tree := by
    rw [← hk]
    clear e w b hk
    cases o' <;> simp [Obj.kind, Obj.nested] at hn ⊢
  have hself := get_set_self (.live n o') hlt
  have hold : ∀ x, x ≠ r → get (h.set r (.live n o')) x = get h x := fun x hx => get_set_ne _ hx
  have hkind : ∀ x m o'', get (h.set r (.live n o')) x = .live m o'' →
      ∃ q, get h x = .live m q ∧ q.kind = o''.kind := by
    intro x m o'' hx
    by_cases ex : x = r
    · subst ex; rw [hself] at hx; cases hx; exact ⟨o, hr, hk.symm⟩
    · rw [hold x ex] at hx; exact ⟨o'', hx, rfl⟩
  refine ⟨fun x => ?_, ?_, ?_, ⟨?_, ?_⟩, ?_⟩
  · have h1 := f.counted x
    have h2 := e x
    have h3 := stored_set (.live n o') x hlt
    rw [hr] at h3
    simp only [Cell.refs] at h3
    by_cases ex : x = r
    · subst ex
      rw [hself]
      rw [hr] at h1
      dsimp only at h1 ⊢
      omega
    · rw [hold x ex]
      cases hc : get h x with
      | live m o'' => rw [hc] at h1; dsimp only at h1 ⊢; omega
      | dying =>
        rw [hc] at h1
        have := refs_le_stored hr x
        dsimp only at h1 ⊢
        omega
      | freed =>
        rw [hc] at h1
        have := refs_le_stored hr x
        dsimp only at h1 ⊢
        omega
  · intro y m q hy x k hx m' o'' hx'
    obtain ⟨q', hq', hk'⟩ := hkind x m' o'' hx'
    by_cases ey : y = r
    · subst ey; rw [hself] at hy; cases hy
      rw [← hk']; exact w x k hx m' q' hq'
    · rw [hold y ey] at hy
      rw [← hk']; exact f.typed y m q hy x k hx m' q' hq'
  · intro y m q hy
    by_cases ey : y = r
    · subst ey; rw [hself] at hy; cases hy; exact b
    · rw [hold y ey] at hy; exact f.borrowed y m q hy
  · intro c m cs t hc
    have hcr : c ≠ r := by
      intro ec; subst ec; rw [hself] at hc; cases hc; exact hnt (by rw [← hk]; rfl)
    rw [hold c hcr] at hc
    obtain ⟨m', cs', p, h1, h2⟩ := f.linked.up c m cs t hc
    have htr : t ≠ r := by
      intro et; subst et; rw [hr] at h1; cases h1; exact hnt rfl
    exact ⟨m', cs', p, by rw [hold t htr]; exact h1, h2⟩
  · intro t m cs p c m' cs' q ht hc hcc
    have htr : t ≠ r := by
      intro et; subst et; rw [hself] at ht; cases ht; exact hnt (by rw [← hk]; rfl)
    have hcr : c ≠ r := by
      intro ec; subst ec; rw [hself] at hcc; cases hcc; exact hnt (by rw [← hk]; rfl)
    rw [hold t htr] at ht
    rw [hold c hcr] at hcc
    exact f.linked.down t m cs p c m' cs' q ht hc hcc
  · obtain ⟨rank, hb⟩ := f.ranked
    refine ⟨rank, fun x m q hx hq => ?_⟩
    by_cases ex : x = r
    · subst ex; rw [hself] at hx; cases hx; rw [hn] at hq; exact nomatch hq
    · rw [hold x ex] at hx; exact hb x m q hx hq

/-! ## Nothing changed -/

theorem Unchanged.refl (h : Heap) : Unchanged h h := ⟨Nat.le_refl _, fun _ => rfl⟩

theorem stored_of_get : ∀ (h h' : Heap), h.length ≤ h'.length → (∀ r, get h' r = get h r) →
    ∀ x, stored h' x = stored h x
  | [], h', _, e, x => by
    have : ∀ l : Heap, (∀ r, get l r = .freed) → stored l x = 0 := by
      intro l
      induction l with
      | nil => intro _; rfl
      | cons c l ih =>
        intro hl
        have h0 : c = .freed := by simpa [get] using hl 0
        have h1 := ih fun r => by simpa [get] using hl (r + 1)
        simp only [stored, List.map_cons, List.sum_cons, h0, Cell.refs] at h1 ⊢
        omega
    rw [this h' (fun r => by rw [e r]; rfl)]
    rfl
  | c :: h, [], hl, _, _ => absurd hl (by simp)
  | c :: h, c' :: h', hl, e, x => by
    have h0 : c' = c := by simpa [get] using e 0
    have h1 := stored_of_get h h' (by simpa using hl) (fun r => by simpa [get] using e (r + 1)) x
    simp only [stored, List.map_cons, List.sum_cons, h0] at h1 ⊢
    omega

theorem Unchanged.full {h h' : Heap} {E : List Ref} (u : Unchanged h h') (f : Full h E) :
    Full h' E := by
  obtain ⟨t, b, l, rk⟩ := same_objects (h := h) (h' := h') (fun r n o hr => ⟨n, by rw [← u.2 r]; exact hr⟩)
    (fun r n o hr => ⟨n, by rw [u.2 r]; exact hr⟩) f
  refine ⟨fun r => ?_, t, b, l, rk⟩
  rw [u.2 r, stored_of_get h h' u.1 u.2]
  exact f.counted r

/-! ## Running functions -/

/-- What a function does from a heap: a result with `Q`, or an error with `R`, and nothing undefined. -/
def Runs (a : Act α) (h : Heap) (Q : α → Heap → Prop) (R : Heap → Prop) : Prop :=
  match a h with
  | .ok x h' => Q x h'
  | .err _ h' => R h'
  | .ub => False

theorem runs_pure {x : α} {h : Heap} {Q : α → Heap → Prop} {R : Heap → Prop} (q : Q x h) :
    Runs (pure x : Act α) h Q R := q

theorem runs_fail {e : Err} {h : Heap} {Q : α → Heap → Prop} {R : Heap → Prop} (r : R h) :
    Runs (fail e : Act α) h Q R := r

theorem runs_mono {a : Act α} {h : Heap} {Q Q' : α → Heap → Prop} {R R' : Heap → Prop}
    (r : Runs a h Q R) (q : ∀ x h', Q x h' → Q' x h') (e : ∀ h', R h' → R' h') :
    Runs a h Q' R' := by
  unfold Runs at r ⊢
  cases hc : a h with
  | ok x h' => rw [hc] at r; exact q x h' r
  | err c h' => rw [hc] at r; exact e h' r
  | ub => rw [hc] at r; exact r

theorem runs_bind {a : Act α} {f : α → Act β} {h : Heap} {P : α → Heap → Prop}
    {Q : β → Heap → Prop} {R : Heap → Prop} (r : Runs a h P R)
    (k : ∀ x h', P x h' → Runs (f x) h' Q R) : Runs (a >>= f) h Q R := by
  show Runs (Act.bind a f) h Q R
  unfold Runs Act.bind
  unfold Runs at r
  cases hc : a h with
  | ok x h' => rw [hc] at r; exact k x h' r
  | err c h' => rw [hc] at r; exact r
  | ub => rw [hc] at r; exact r

theorem runs_verdict {v : Option Err} {h : Heap} {R : Heap → Prop} (r : R h) :
    Runs (verdict v) h (fun _ h' => h = h' ∧ v = none) R := by
  cases v with
  | none => exact ⟨rfl, rfl⟩
  | some e => exact r

theorem runs_load {h : Heap} {r : Ref} {R : Heap → Prop} (a : Alive h r) :
    Runs (load r) h (fun o h' => h = h' ∧ ∃ n, get h r = .live n o) R := by
  obtain ⟨n, o, hr⟩ := a
  unfold Runs load
  rw [hr]
  exact ⟨rfl, n, rfl⟩

theorem runs_check {h : Heap} {r : Ref} {k : Kind} {R : Heap → Prop} (a : Alive h r) (e : R h) :
    Runs (check r k) h (fun o h' => h = h' ∧ ∃ n, get h r = .live n o ∧ o.kind = k) R := by
  refine runs_bind (runs_load a) ?_
  rintro o _ ⟨rfl, n, hn⟩
  by_cases hk : o.kind = k
  · rw [if_pos hk]; exact ⟨rfl, n, hn, hk⟩
  · rw [if_neg hk]; exact e

theorem runs_retain {h : Heap} {r : Ref} {R : Heap → Prop} (a : Alive h r) {k : Nat}
    (room : Room h (k + 1)) :
    Runs (retain r) h (fun _ h' => h' = bump h r) R := by
  obtain ⟨n, o, hr⟩ := a
  have := room.2 r n o hr
  unfold Runs retain
  rw [hr]
  dsimp only
  rw [if_pos (by omega), bump_eq hr]

theorem runs_alloc {h : Heap} {o : Obj} {R : Heap → Prop} :
    Runs (alloc o) h (fun r h' => r = h.length ∧ h' = h ++ [.live 1 o]) R := ⟨rfl, rfl⟩

theorem runs_store {h : Heap} {r : Ref} {n : Nat} {o o' : Obj} {R : Heap → Prop}
    (hr : get h r = .live n o) :
    Runs (store r o') h (fun _ h' => h' = h.set r (.live n o')) R := by
  unfold Runs store
  rw [hr]

theorem runs_release {h : Heap} {r : Ref} {E : List Ref} (f : Full h (r :: E)) :
    Runs (release r) h (fun _ h' => Full h' E ∧ Fading h h') (fun h' => Full h' E ∧ Fading h h') := by
  obtain ⟨h', hc, f', hf⟩ := release_full f
  unfold Runs
  rcases hc with hc | ⟨e, hc⟩
  · rw [hc]; exact ⟨f', hf⟩
  · rw [hc]; exact ⟨f', hf⟩

theorem runs_ignore_release {h : Heap} {r : Ref} {E : List Ref} {R : Heap → Prop}
    (f : Full h (r :: E)) :
    Runs (ignore (release r)) h (fun _ h' => Full h' E ∧ Fading h h') R := by
  obtain ⟨h', hc, f', hf⟩ := release_full f
  unfold Runs ignore
  rcases hc with hc | ⟨e, hc⟩
  · rw [hc]; exact ⟨f', hf⟩
  · rw [hc]; exact ⟨f', hf⟩

/-- Only a user's `del` makes a release fail. -/
theorem runs_release_ok {h : Heap} {r : Ref} {E : List Ref} {R : Heap → Prop} (f : Full h (r :: E))
    {n : Nat} {o : Obj} (hr : get h r = .live n o) (ho : o.delRes = none) :
    Runs (release r) h (fun _ h' => Full h' E ∧ Fading h h') R := by
  obtain ⟨h', hc, f', hf⟩ := release_full f
  unfold Runs
  rcases hc with hc | ⟨e, hc⟩
  · rw [hc]; exact ⟨f', hf⟩
  · exfalso
    unfold release at hc
    rw [hr] at hc
    dsimp only at hc
    rw [ho] at hc
    cases hd : drain (steps h) h [.release r] with
    | none => rw [hd] at hc; exact nomatch hc
    | some h'' =>
      rw [hd] at hc
      simp at hc

theorem runs_releaseAll {R : Heap → Prop} : ∀ (rs : List Ref) {h : Heap} {E : List Ref},
    Full h (rs ++ E) → Runs (releaseAll rs) h (fun _ h' => Full h' E ∧ Fading h h') R
  | [], h, E, f => ⟨f, Fading.refl h⟩
  | r :: rs, h, E, f => by
    refine runs_bind (runs_ignore_release (E := rs ++ E) f) ?_
    rintro _ h1 ⟨f1, e1⟩
    exact runs_mono (runs_releaseAll rs f1) (fun _ _ q => ⟨q.1, e1.trans q.2⟩) (fun _ q => q)

/-- Releasing `rs` takes back what was done since `b`. -/
def Undo (rs : List Ref) (h b : Heap) : Prop :=
  ∀ h2, Unchanged h h2 → ∃ h3, releaseAll rs h2 = .ok () h3 ∧ Unchanged b h3

theorem undo_nil (h : Heap) : Undo [] h h := fun h2 u => ⟨h2, rfl, u⟩

theorem undo_cons {r : Ref} {rs : List Ref} {h b : Heap}
    (one : ∀ h2, Unchanged h h2 → ∃ h3, release r h2 = .ok () h3 ∧
      ∃ h4, releaseAll rs h3 = .ok () h4 ∧ Unchanged b h4) :
    Undo (r :: rs) h b := by
  intro h2 u
  obtain ⟨h3, e3, h4, e4, u4⟩ := one h2 u
  refine ⟨h4, ?_, u4⟩
  show Act.bind (ignore (release r)) (fun _ => releaseAll rs) h2 = _
  unfold Act.bind ignore
  rw [e3]
  exact e4

/-- Dropping one of several references. -/
theorem release_dec {h : Heap} {r : Ref} {n : Nat} {o : Obj} (hr : get h r = .live (n + 1) o)
    (hn : 0 < n) : release r h = .ok () (h.set r (.live n o)) := by
  have hs : ∃ k, steps h = k + 1 := ⟨_, rfl⟩
  obtain ⟨k, hk⟩ := hs
  have hd : drain (steps h) h [.release r] = some (h.set r (.live n o)) := by
    rw [hk, drain, hr]
    dsimp only
    rw [if_neg (by omega)]
    cases k <;> rfl
  unfold release
  rw [hr]
  dsimp only
  rw [hd]
  dsimp only
  rw [if_neg (by omega)]

theorem undo_bump {r : Ref} {rs : List Ref} {h b : Heap} {n : Nat} {o : Obj}
    (hr : get h r = .live n o) (hn : 0 < n) (u : Undo rs h b) : Undo (r :: rs) (bump h r) b := by
  refine undo_cons fun h2 u2 => ?_
  have h2r : get h2 r = .live (n + 1) o := by rw [u2.2 r, get_bump_self hr]
  refine ⟨_, release_dec h2r hn, u _ ⟨?_, fun x => ?_⟩⟩
  · have := u2.1
    rw [length_bump] at this
    simpa using this
  · by_cases e : x = r
    · subst e; rw [get_set_self _ (lt_of_live h2r), hr]
    · rw [get_set_ne _ e, u2.2 x, get_bump_ne e]

/-- A new object without fields disappears. -/
theorem undo_leaf {rs : List Ref} {h b : Heap} {o : Obj} (hd : o.del = []) (hres : o.delRes = none)
    (u : Undo rs h b) : Undo (h.length :: rs) (h ++ [.live 1 o]) b := by
  refine undo_cons fun h2 u2 => ?_
  have h2r : get h2 h.length = .live 1 o := by rw [u2.2, get_append_self]
  have hlt := lt_of_live h2r
  have hk : ∃ k, steps h2 = k + 2 := by
    have h1 := le_sum Cell.work h2 h.length hlt
    rw [h2r] at h1
    simp only [Cell.work] at h1
    exact ⟨(h2.map Cell.work).sum - 1, by unfold steps; omega⟩
  obtain ⟨k, hk⟩ := hk
  have hdr : drain (steps h2) h2 [.release h.length] = some ((h2.set h.length .dying).set h.length .freed) := by
    rw [hk, drain, h2r]
    dsimp only
    rw [if_pos (Nat.le_refl _), hd, hres]
    show drain (k + 1) _ [.free h.length] = _
    rw [drain, get_set_self _ hlt]
    cases k <;> rfl
  refine ⟨(h2.set h.length .dying).set h.length .freed, ?_,
    u _ (show Unchanged h _ from ⟨?_, fun x => ?_⟩)⟩
  · unfold release
    rw [h2r]
    dsimp only
    rw [hdr]
    dsimp only
    rw [if_pos (Nat.le_refl _), hres]
  · have := u2.1
    simp at this ⊢
    omega
  · by_cases e : x = h.length
    · subst e
      rw [get_set_self _ (by simpa using hlt), get_of_ge (Nat.le_refl _)]
    · rw [get_set_ne _ e, get_set_ne _ e, u2.2 x]
      rcases Nat.lt_or_ge x h.length with hx | hx
      · rw [get_append_lt _ hx]
      · have : h.length < x := Nat.lt_of_le_of_ne hx (Ne.symm e)
        rw [get_of_ge hx, get_of_ge (by simp; omega)]

/-- A new object with one field disappears. -/
theorem undo_single {rs : List Ref} {h b : Heap} {o oy : Obj} {y : Ref} {n : Nat}
    (hy : get h y = .live n oy) (hn : 0 < n) (hd : o.del = [.release y]) (hres : o.delRes = none)
    (u : Undo rs h b) : Undo (h.length :: rs) (bump h y ++ [.live 1 o]) b := by
  have hylt := lt_of_live hy
  refine undo_cons fun h2 u2 => ?_
  have hlen := length_bump h y
  have h2r : get h2 h.length = .live 1 o := by rw [u2.2, ← hlen, get_append_self]
  have h2y : get h2 y = .live (n + 1) oy := by
    rw [u2.2, get_append_lt _ (by rw [hlen]; exact hylt), get_bump_self hy]
  have hlt := lt_of_live h2r
  have hne : y ≠ h.length := Nat.ne_of_lt hylt
  have hk : ∃ k, steps h2 = k + 3 := by
    have h1 := le_sum Cell.work h2 h.length hlt
    rw [h2r] at h1
    simp only [Cell.work, hd, List.length_singleton] at h1
    exact ⟨(h2.map Cell.work).sum - 2, by unfold steps; omega⟩
  obtain ⟨k, hk⟩ := hk
  have hdr : drain (steps h2) h2 [.release h.length] =
      some (((h2.set h.length .dying).set y (.live n oy)).set h.length .freed) := by
    rw [hk, drain, h2r]
    dsimp only
    rw [if_pos (Nat.le_refl _), hd, hres]
    show drain (k + 2) _ [.release y, .free h.length] = _
    rw [drain, get_set_ne _ hne, h2y]
    dsimp only
    rw [if_neg (by omega), Nat.add_sub_cancel, drain, get_set_ne _ (Ne.symm hne), get_set_self _ hlt]
    cases k <;> rfl
  refine ⟨((h2.set h.length .dying).set y (.live n oy)).set h.length .freed, ?_,
    u _ (show Unchanged h _ from ⟨?_, fun x => ?_⟩)⟩
  · unfold release
    rw [h2r]
    dsimp only
    rw [hdr]
    dsimp only
    rw [if_pos (Nat.le_refl _), hres]
  · have := u2.1
    simp [hlen] at this ⊢
    omega
  · by_cases e : x = h.length
    · subst e
      rw [get_set_self _ (by simpa using hlt), get_of_ge (Nat.le_refl _)]
    · rw [get_set_ne _ e]
      by_cases e' : x = y
      · subst e'
        rw [get_set_self _ (by simpa using lt_of_live h2y), hy]
      · rw [get_set_ne _ e', get_set_ne _ e, u2.2 x]
        rcases Nat.lt_or_ge x h.length with hx | hx
        · rw [get_append_lt _ (by rw [hlen]; exact hx), get_bump_ne e']
        · have : h.length < x := Nat.lt_of_le_of_ne hx (Ne.symm e)
          rw [get_of_ge hx, get_of_ge (by simp [hlen]; omega)]

theorem runs_orRelease {a : Act α} {rs : List Ref} {h b : Heap} {Q : α → Heap → Prop}
    (r : Runs a h Q (Unchanged h)) (u : Undo rs h b) :
    Runs (orRelease a rs) h Q (Unchanged b) := by
  unfold Runs at r ⊢
  unfold orRelease
  cases hc : a h with
  | ok x h' => rw [hc] at r; exact r
  | err e h' =>
    rw [hc] at r
    obtain ⟨h3, e3, u3⟩ := u h' r
    dsimp only
    rw [e3]
    exact u3
  | ub => rw [hc] at r; exact r

end CCS.Own
