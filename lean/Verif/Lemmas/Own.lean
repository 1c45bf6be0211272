import Verif.Spec.Own

/-! # Ownership: the heap and the propagation of releases -/

namespace CCS.Own

open CCS

/-! ## Cells -/

theorem get_set_self {h : Heap} {r : Ref} (c : Cell) (hr : r < h.length) : get (h.set r c) r = c := by
  simp [get, List.getD_eq_getElem?_getD, hr]

theorem get_set_ne {h : Heap} {r x : Ref} (c : Cell) (hx : x ≠ r) : get (h.set r c) x = get h x := by
  simp [get, List.getD_eq_getElem?_getD, List.getElem?_set_ne (Ne.symm hx)]

theorem lt_of_live {h : Heap} {r : Ref} {n : Nat} {o : Obj} (hr : get h r = .live n o) :
    r < h.length := by
  rcases Nat.lt_or_ge r h.length with hlt | hge
  · exact hlt
  · simp [get, List.getD_eq_getElem?_getD, List.getElem?_eq_none hge] at hr

theorem lt_of_dying {h : Heap} {r : Ref} (hr : get h r = .dying) : r < h.length := by
  rcases Nat.lt_or_ge r h.length with hlt | hge
  · exact hlt
  · simp [get, List.getD_eq_getElem?_getD, List.getElem?_eq_none hge] at hr

theorem get_of_ge {h : Heap} {r : Ref} (hr : h.length ≤ r) : get h r = .freed := by
  simp [get, List.getD_eq_getElem?_getD, List.getElem?_eq_none hr]

theorem get_append_lt {h : Heap} {r : Ref} (t : Heap) (hr : r < h.length) :
    get (h ++ t) r = get h r := by
  simp [get, List.getD_eq_getElem?_getD, List.getElem?_append_left hr]

theorem get_append_self (h : Heap) (c : Cell) : get (h ++ [c]) h.length = c := by
  simp [get, List.getD_eq_getElem?_getD]

theorem set_get {h : Heap} {r : Ref} {c : Cell} (hc : get h r = c) (hr : r < h.length) :
    h.set r c = h := by
  apply List.ext_getElem?
  intro i
  by_cases hi : i = r
  · subst hi
    simp [get, List.getD_eq_getElem?_getD, hr] at hc
    simp [hr, hc]
  · simp [List.getElem?_set_ne (Ne.symm hi)]

/-! ## Sums over the heap -/

theorem sum_set (f : Cell → Nat) : ∀ (h : Heap) (r : Ref) (c : Cell), r < h.length →
    ((h.set r c).map f).sum + f (get h r) = (h.map f).sum + f c
  | [], _, _, hr => absurd hr (Nat.not_lt_zero _)
  | a :: h, 0, c, _ => by simp [get]; omega
  | a :: h, r + 1, c, hr => by
    have := sum_set f h r c (by simpa using hr)
    simp only [get, List.getD_cons_succ, List.set_cons_succ, List.map_cons, List.sum_cons] at this ⊢
    omega

theorem stored_set {h : Heap} {r : Ref} (c : Cell) (x : Ref) (hr : r < h.length) :
    stored (h.set r c) x + (get h r).refs x = stored h x + c.refs x :=
  sum_set (Cell.refs x) h r c hr

theorem stored_append (h : Heap) (c : Cell) (x : Ref) :
    stored (h ++ [c]) x = stored h x + c.refs x := by
  simp [stored]

theorem le_sum (f : Cell → Nat) : ∀ (h : Heap) (r : Ref), r < h.length →
    f (get h r) ≤ (h.map f).sum
  | [], _, hr => absurd hr (Nat.not_lt_zero _)
  | a :: h, 0, _ => by simp [get]
  | a :: h, r + 1, hr => by
    have := le_sum f h r (by simpa using hr)
    simp only [get, List.getD_cons_succ, List.map_cons, List.sum_cons] at this ⊢
    omega

theorem refs_le_stored {h : Heap} {r : Ref} {n : Nat} {o : Obj} (hr : get h r = .live n o) (x : Ref) :
    o.holds.count x ≤ stored h x := by
  have := le_sum (Cell.refs x) h r (lt_of_live hr)
  rw [hr] at this
  exact this

theorem exists_of_sum (f : Cell → Nat) : ∀ (h : Heap), 0 < (h.map f).sum →
    ∃ r, r < h.length ∧ 0 < f (get h r)
  | [], hs => absurd hs (by simp)
  | a :: h, hs => by
    rcases Nat.eq_zero_or_pos (f a) with ha | ha
    · obtain ⟨r, hr, hf⟩ := exists_of_sum f h (by simpa [ha] using hs)
      exact ⟨r + 1, by simpa using hr, by simpa [get] using hf⟩
    · exact ⟨0, by simp, by simpa [get] using ha⟩

/-- Something stored is stored in an object that exists. -/
theorem holder_of_stored {h : Heap} {x : Ref} (hs : 0 < stored h x) :
    ∃ r n o, get h r = .live n o ∧ x ∈ o.holds := by
  obtain ⟨r, _, hf⟩ := exists_of_sum (Cell.refs x) h hs
  cases hc : get h r with
  | live n o =>
    rw [hc] at hf
    exact ⟨r, n, o, hc, List.count_pos_iff.1 hf⟩
  | dying => rw [hc] at hf; simp [Cell.refs] at hf
  | freed => rw [hc] at hf; simp [Cell.refs] at hf

/-! ## Destructors -/

/-- Releases pending on an object. -/
def pend (ts : List Task) (r : Ref) : Nat := ts.count (.release r)

theorem pend_append (a b : List Task) (r : Ref) : pend (a ++ b) r = pend a r + pend b r := by
  simp [pend]

theorem pend_nil (r : Ref) : pend [] r = 0 := rfl

theorem pend_release (x : Ref) (ts : List Task) (r : Ref) :
    pend (.release x :: ts) r = pend ts r + [x].count r := by
  simp [pend, List.count_cons]

theorem pend_detach (x : Ref) (ts : List Task) (r : Ref) :
    pend (.detach x :: ts) r = pend ts r := by
  simp [pend]

theorem pend_free (x : Ref) (ts : List Task) (r : Ref) : pend (.free x :: ts) r = pend ts r := by
  simp [pend]

theorem pend_map (l : List Ref) (r : Ref) : pend (l.map .release) r = l.count r := by
  induction l with
  | nil => rfl
  | cons a l ih => rw [List.map_cons, pend_release, ih]; simp only [List.count_cons, List.count_nil]; omega

theorem pend_dat (d : Dat) (r : Ref) : pend d.release r = d.refs.count r := by
  cases d <;> simp [Dat.release, Dat.refs, pend, List.count_cons]

/-- A destructor releases exactly what the object owns. -/
theorem pend_del (o : Obj) (r : Ref) : pend o.del r = o.holds.count r := by
  cases o with
  | composite l => exact pend_map l r
  | operation l => exact pend_map l r
  | featuresSpace l => exact pend_map l r
  | objectiveSpace l m => simp only [Obj.del, Obj.holds, pend_append, pend_map, List.count_append]
  | configurationSpace g ps cl ds =>
    have hd : pend (ds.map fun d => .release d.1) r = (ds.map (·.1)).count r := by
      rw [← pend_map, List.map_map]; rfl
    have hp : pend (ps.flatMap fun p => .release p.1 :: (p.2.toList.map .release)) r =
        (ps.map (·.1)).count r + (ps.filterMap (·.2)).count r := by
      clear hd
      induction ps with
      | nil => rfl
      | cons p ps ih =>
        obtain ⟨a, _ | b⟩ := p
        · rw [List.flatMap_cons, pend_append, ih]
          simp only [Option.toList, List.map_nil, pend_release, pend_nil, List.map_cons,
            List.filterMap_cons, List.count_cons, List.count_nil]
          omega
        · rw [List.flatMap_cons, pend_append, ih]
          simp only [Option.toList, List.map_nil, pend_release, pend_nil, List.map_cons,
            List.filterMap_cons, List.count_cons, List.count_nil]
          omega
    simp only [Obj.del, Obj.holds, pend_append, pend_map, hd, hp, pend_release, pend_nil,
      List.count_cons, List.count_append, List.count_nil]
    omega
  | tuner a b l _ =>
    simp only [Obj.del, Obj.holds, pend_release, pend_map, List.count_cons, List.count_nil]; omega
  | treeTuner a b l _ =>
    simp only [Obj.del, Obj.holds, pend_release, pend_map, List.count_cons, List.count_nil]; omega
  | featuresTuner a b c l _ =>
    simp only [Obj.del, Obj.holds, pend_release, pend_map, List.count_cons, List.count_nil]; omega
  | map es =>
    simp only [Obj.del, Obj.holds]
    induction es with
    | nil => rfl
    | cons e es ih =>
      rw [List.flatMap_cons, pend_append, ih, List.flatMap_cons, List.count_append, pend_append,
        pend_dat, pend_dat, List.count_append]
  | tree cs p =>
    simp only [Obj.del, Obj.holds]
    induction cs with
    | nil => rfl
    | cons c cs ih =>
      rw [List.flatMap_cons, pend_append, ih]
      cases c with
      | none => simp [pend_nil]
      | some c => simp [pend_detach, pend_release, pend_nil, List.count_cons]; omega
  | _ =>
    simp only [Obj.del, Obj.holds, pend_release, pend_nil, List.count_cons, List.count_nil] <;> omega

theorem free_not_mem_del (o : Obj) (r : Ref) : Task.free r ∉ o.del := by
  have hd : ∀ d : Dat, Task.free r ∉ d.release := by intro d; cases d <;> simp [Dat.release]
  cases o with
  | map es => simp [Obj.del, hd]
  | tree cs p =>
    simp only [Obj.del, List.mem_flatMap, not_exists, not_and]
    intro c _; cases c <;> simp
  | configurationSpace => simp [Obj.del]
  | _ => simp [Obj.del]

/-- Only trees detach, and only their children. -/
theorem detach_mem_del {o : Obj} {r : Ref} (h : Task.detach r ∈ o.del) :
    ∃ cs p, o = .tree cs p ∧ some r ∈ cs := by
  have hd : ∀ d : Dat, Task.detach r ∉ d.release := by intro d; cases d <;> simp [Dat.release]
  cases o with
  | map es => simp [Obj.del, hd] at h
  | tree cs p =>
    refine ⟨cs, p, rfl, ?_⟩
    simp only [Obj.del, List.mem_flatMap] at h
    obtain ⟨c, hc, h⟩ := h
    cases c with
    | none => simp at h
    | some c =>
      have : r = c := by simpa using h
      exact this ▸ hc
  | _ => simp [Obj.del] at h

/-- A detached object is released later. -/
def Paired (ts : List Task) : Prop :=
  ∀ a r b, ts = a ++ .detach r :: b → Task.release r ∈ b

theorem paired_tail {t : Task} {ts : List Task} (h : Paired (t :: ts)) : Paired ts :=
  fun a r b e => h (t :: a) r b (by rw [e]; rfl)

theorem paired_cons {t : Task} {ts : List Task} (ht : ∀ r, t = .detach r → Task.release r ∈ ts)
    (h : Paired ts) : Paired (t :: ts) := by
  intro a r b e
  cases a with
  | nil =>
    simp only [List.nil_append, List.cons.injEq] at e
    exact e.2 ▸ ht r e.1
  | cons x a =>
    simp only [List.cons_append, List.cons.injEq] at e
    exact h a r b e.2

theorem paired_append {a b : List Task} (ha : Paired a) (hb : Paired b) : Paired (a ++ b) := by
  induction a with
  | nil => exact hb
  | cons t a ih =>
    refine paired_cons (fun r e => ?_) (ih (paired_tail ha))
    exact List.mem_append_left _ (ha [] r a (by rw [e]; rfl))

theorem paired_of_none {ts : List Task} (h : ∀ r, Task.detach r ∉ ts) : Paired ts := by
  intro a r b e
  exact absurd (by rw [e]; simp) (h r)

theorem paired_del (o : Obj) : Paired o.del := by
  by_cases hd : ∃ r, Task.detach r ∈ o.del
  · obtain ⟨r, hr⟩ := hd
    obtain ⟨cs, p, rfl, -⟩ := detach_mem_del hr
    clear hr
    simp only [Obj.del]
    induction cs with
    | nil => exact paired_of_none (by simp)
    | cons c cs ih =>
      rw [List.flatMap_cons]
      refine paired_append ?_ ih
      cases c with
      | none => exact paired_of_none (by simp)
      | some c =>
        refine paired_cons (fun x e => ?_) (paired_of_none (by simp))
        simp only [Task.detach.injEq] at e
        simp [e]
  · exact paired_of_none fun r hr => hd ⟨r, hr⟩

/-! ## The invariant -/

/-- The objects that may own objects of their own kind. -/
def Obj.nested : Obj → Bool
  | .composite _ | .operation _ | .tree _ _ => true
  | _ => false

/-- These do not own themselves, however indirectly. -/
def Ranked (h : Heap) : Prop :=
  ∃ rank : Ref → Nat, ∀ x n o, get h x = .live n o → o.nested = true → ∀ y ∈ o.holds, rank y < rank x

/-- All that holds of the heap between two calls, for the references owned from outside. -/
structure Full (h : Heap) (ext : List Ref) : Prop where
  counted : Counted h ext
  typed : Typed h
  borrowed : Borrowed h
  linked : Linked h
  ranked : Ranked h

/-- The same while tasks are pending. -/
structure During (h : Heap) (ts : List Task) (ext : List Ref) : Prop where
  counted : ∀ r, match get h r with
    | .live n _ => 0 < n ∧ n = ext.count r + stored h r + pend ts r
    | _ => ext.count r = 0 ∧ stored h r = 0 ∧ pend ts r = 0
  typed : Typed h
  borrowed : Borrowed h
  up : ∀ c n cs t, get h c = .live n (.tree cs (some t)) → Task.detach c ∈ ts ∨
    ∃ m cs' p, get h t = .live m (.tree cs' p) ∧ some c ∈ cs'
  down : ∀ t n cs p c m cs' q, get h t = .live n (.tree cs p) → some c ∈ cs →
    get h c = .live m (.tree cs' q) → q = some t
  paired : Paired ts
  trees : ∀ c, Task.detach c ∈ ts → (∃ n cs p, get h c = .live n (.tree cs p)) ∧
    ∀ t n cs p, get h t = .live n (.tree cs p) → some c ∉ cs
  frees : ∀ r, ts.count (.free r) ≤ 1
  dying : ∀ r, Task.free r ∈ ts → get h r = .dying

/-- What can become of an object while releases propagate. -/
def Fades : Cell → Cell → Prop
  | .live n o, .live m o' => m ≤ n ∧ (o' = o ∨ ∃ cs p, o = .tree cs p ∧ o' = .tree cs none)
  | .live _ _, _ => True
  | .dying, .live _ _ => False
  | .dying, _ => True
  | .freed, c => c = .freed

theorem Fades.refl (c : Cell) : Fades c c := by cases c <;> simp [Fades]

theorem Fades.trans {a b c : Cell} (h1 : Fades a b) (h2 : Fades b c) : Fades a c := by
  cases a with
  | live n o =>
    cases b with
    | live m o' =>
      cases c with
      | live k o'' =>
        refine ⟨Nat.le_trans h2.1 h1.1, ?_⟩
        rcases h1.2 with rfl | ⟨cs, p, rfl, rfl⟩
        · exact h2.2
        · rcases h2.2 with rfl | ⟨cs', p', e, rfl⟩
          · exact .inr ⟨cs, p, rfl, rfl⟩
          · cases e; exact .inr ⟨cs, p, rfl, rfl⟩
      | dying => trivial
      | freed => trivial
    | dying => cases c <;> simp_all [Fades]
    | freed => cases c <;> simp_all [Fades]
  | dying => cases b <;> cases c <;> simp_all [Fades]
  | freed => cases b <;> cases c <;> simp_all [Fades]

/-- Objects only fade. -/
def Fading (h h' : Heap) : Prop := h'.length = h.length ∧ ∀ r, Fades (get h r) (get h' r)

theorem Fading.refl (h : Heap) : Fading h h := ⟨rfl, fun _ => Fades.refl _⟩

theorem Fading.trans {a b c : Heap} (h1 : Fading a b) (h2 : Fading b c) : Fading a c :=
  ⟨h2.1.trans h1.1, fun r => (h1.2 r).trans (h2.2 r)⟩

theorem fading_set {h : Heap} {r : Ref} {c : Cell} (hr : r < h.length) (hc : Fades (get h r) c) :
    Fading h (h.set r c) := by
  refine ⟨by simp, fun x => ?_⟩
  by_cases hx : x = r
  · subst hx; rw [get_set_self _ hr]; exact hc
  · rw [get_set_ne _ hx]; exact Fades.refl _

theorem live_of_fading {h h' : Heap} (hf : Fading h h') {r : Ref} {n : Nat} {o : Obj}
    (hr : get h' r = .live n o) : ∃ m o', get h r = .live m o' ∧ n ≤ m ∧
      (o = o' ∨ ∃ cs p, o' = .tree cs p ∧ o = .tree cs none) := by
  have := hf.2 r
  rw [hr] at this
  cases hc : get h r with
  | live m o' => rw [hc] at this; exact ⟨m, o', rfl, this.1, this.2⟩
  | dying => rw [hc] at this; exact this.elim
  | freed => rw [hc] at this; exact nomatch this

theorem fades_kind {n m : Nat} {o o' : Obj} (h : Fades (.live n o) (.live m o')) :
    o'.kind = o.kind ∧ o'.wants = o.wants ∧ o'.holds = o.holds ∧ o'.optima = o.optima ∧
      o'.history = o.history := by
  rcases h.2 with rfl | ⟨cs, p, rfl, rfl⟩
  · exact ⟨rfl, rfl, rfl, rfl, rfl⟩
  · exact ⟨rfl, rfl, rfl, rfl, rfl⟩

theorem fading_typed {h h' : Heap} (hf : Fading h h') (ht : Typed h) : Typed h' := by
  intro r n o hr x k hx m o' hx'
  obtain ⟨n0, o0, h0, -, -⟩ := live_of_fading hf hr
  obtain ⟨n1, o1, h1, -, -⟩ := live_of_fading hf hx'
  have f0 := hf.2 r
  have f1 := hf.2 x
  rw [h0, hr] at f0
  rw [h1, hx'] at f1
  rw [(fades_kind f1).1]
  exact ht r n0 o0 h0 x k ((fades_kind f0).2.1 ▸ hx) n1 o1 h1

theorem fading_borrowed {h h' : Heap} (hf : Fading h h') (hb : Borrowed h) : Borrowed h' := by
  intro r n o hr e he
  obtain ⟨n0, o0, h0, -, -⟩ := live_of_fading hf hr
  have f0 := hf.2 r
  rw [h0, hr] at f0
  rw [(fades_kind f0).2.2.2.2]
  exact hb r n0 o0 h0 e ((fades_kind f0).2.2.2.1 ▸ he)

theorem ranked_fading {h h' : Heap} (hf : Fading h h') (hb : Ranked h) : Ranked h' := by
  obtain ⟨rank, hb⟩ := hb
  refine ⟨rank, fun x n o hx hn y hy => ?_⟩
  have f0 := hf.2 x
  cases hc : get h x with
  | live m o0 =>
    rw [hc, hx] at f0
    rcases f0.2 with rfl | ⟨cs, p, rfl, rfl⟩
    · exact hb x m _ hc hn y hy
    · exact hb x m _ hc rfl y hy
  | dying => rw [hc, hx] at f0; exact f0.elim
  | freed => rw [hc, hx] at f0; exact nomatch f0

theorem During.full {h : Heap} {ext : List Ref} (d : During h [] ext) (hb : Ranked h) : Full h ext where
  counted := by
    intro r
    have := d.counted r
    cases hc : get h r with
    | live n o => rw [hc] at this; simpa [pend_nil] using this
    | dying => rw [hc] at this; exact ⟨this.1, this.2.1⟩
    | freed => rw [hc] at this; exact ⟨this.1, this.2.1⟩
  typed := d.typed
  borrowed := d.borrowed
  linked := ⟨fun c n cs t hc => (d.up c n cs t hc).resolve_left (by simp), d.down⟩
  ranked := hb

/-- Beginning of a release. -/
theorem Full.during {h : Heap} {ext : List Ref} {r : Ref} (f : Full h (r :: ext)) :
    During h [.release r] ext where
  counted := by
    intro x
    have := f.counted x
    cases hc : get h x with
    | live n o =>
      rw [hc] at this
      simp only [List.count_cons, pend_release, pend_nil, List.count_nil] at this ⊢
      omega
    | dying =>
      rw [hc] at this
      simp only [List.count_cons, pend_release, pend_nil, List.count_nil] at this ⊢
      omega
    | freed =>
      rw [hc] at this
      simp only [List.count_cons, pend_release, pend_nil, List.count_nil] at this ⊢
      omega
  typed := f.typed
  borrowed := f.borrowed
  up := fun c n cs t hc => .inr (f.linked.up c n cs t hc)
  down := f.linked.down
  paired := paired_of_none (by simp)
  trees := by simp
  frees := by simp
  dying := by simp

/-! ## One step -/

/-- The work left. -/
def work (h : Heap) : Nat := (h.map Cell.work).sum

theorem work_set {h : Heap} {r : Ref} (c : Cell) (hr : r < h.length) :
    work (h.set r c) + (get h r).work = work h + c.work := sum_set Cell.work h r c hr

/-- A release that is not the last one. -/
theorem During.decrement {h : Heap} {ts : List Task} {ext : List Ref} {r : Ref} {n : Nat} {o : Obj}
    (d : During h (.release r :: ts) ext) (hr : get h r = .live n o) (hn : ¬ n ≤ 1) :
    During (h.set r (.live (n - 1) o)) ts ext := by
  have hlt := lt_of_live hr
  have hf : Fading h (h.set r (.live (n - 1) o)) := fading_set hlt (by rw [hr]; exact ⟨by omega, .inl rfl⟩)
  have hst : ∀ x, stored (h.set r (.live (n - 1) o)) x = stored h x := by
    intro x
    have := stored_set (.live (n - 1) o) x hlt
    rw [hr] at this
    simp only [Cell.refs] at this
    omega
  have hget : ∀ x, x ≠ r → get (h.set r (.live (n - 1) o)) x = get h x := fun x hx => get_set_ne _ hx
  have hback : ∀ x m o', get (h.set r (.live (n - 1) o)) x = .live m o' →
      ∃ k, get h x = .live k o' := by
    intro x m o' hx
    by_cases e : x = r
    · subst e
      rw [get_set_self _ hlt] at hx
      cases hx
      exact ⟨n, hr⟩
    · rw [hget x e] at hx; exact ⟨m, hx⟩
  have hfwd : ∀ x k o', get h x = .live k o' →
      ∃ m, get (h.set r (.live (n - 1) o)) x = .live m o' := by
    intro x k o' hx
    by_cases e : x = r
    · subst e
      rw [hr] at hx; cases hx
      exact ⟨n - 1, get_set_self _ hlt⟩
    · exact ⟨k, by rw [hget x e]; exact hx⟩
  refine ⟨?_, fading_typed hf d.typed, fading_borrowed hf d.borrowed, ?_, ?_, paired_tail d.paired, ?_,
    ?_, ?_⟩
  · intro x
    have := d.counted x
    by_cases e : x = r
    · subst e
      rw [hr] at this
      rw [get_set_self _ hlt, hst]
      simp only [pend_release, List.count_cons, List.count_nil, beq_self_eq_true, if_true] at this
      dsimp only
      omega
    · rw [hget x e, hst]
      have hp : pend (.release r :: ts) x = pend ts x := by
        rw [pend_release]; simp [Ne.symm e]
      rw [hp] at this
      exact this
  · intro c m cs t hc
    obtain ⟨k, hc⟩ := hback _ _ _ hc
    rcases d.up c k cs t hc with h1 | ⟨m', cs', p, h1, h2⟩
    · exact .inl (by simpa using h1)
    · obtain ⟨m'', h3⟩ := hfwd _ _ _ h1
      exact .inr ⟨m'', cs', p, h3, h2⟩
  · intro t m cs p c m' cs' q ht hc hcc
    obtain ⟨k, ht⟩ := hback _ _ _ ht
    obtain ⟨k', hcc⟩ := hback _ _ _ hcc
    exact d.down t k cs p c k' cs' q ht hc hcc
  · intro c hc
    obtain ⟨⟨m, cs, p, h1⟩, h2⟩ := d.trees c (List.mem_cons_of_mem _ hc)
    obtain ⟨m', h3⟩ := hfwd _ _ _ h1
    refine ⟨⟨m', cs, p, h3⟩, fun t k cs p ht => ?_⟩
    obtain ⟨k', ht⟩ := hback _ _ _ ht
    exact h2 t k' cs p ht
  · intro x
    have := d.frees x
    rw [List.count_cons] at this
    omega
  · intro x hx
    have := d.dying x (List.mem_cons_of_mem _ hx)
    by_cases e : x = r
    · subst e; rw [hr] at this; exact nomatch this
    · rw [hget x e]; exact this

/-- The last release: the object is destroyed. -/
theorem During.destroy {h : Heap} {ts : List Task} {ext : List Ref} {r : Ref} {n : Nat} {o : Obj}
    (d : During h (.release r :: ts) ext) (hr : get h r = .live n o) (hn : n ≤ 1)
    {fr : List Task} (hfr : fr = [] ∨ fr = [.free r]) :
    During (h.set r .dying) (o.del ++ fr ++ ts) ext := by
  have hlt := lt_of_live hr
  have hf : Fading h (h.set r .dying) := fading_set hlt (by rw [hr]; trivial)
  have hst : ∀ x, stored (h.set r .dying) x + o.holds.count x = stored h x := by
    intro x
    have := stored_set .dying x hlt
    rw [hr] at this
    simp only [Cell.refs] at this
    omega
  have hget : ∀ x, x ≠ r → get (h.set r .dying) x = get h x := fun x hx => get_set_ne _ hx
  have hself : get (h.set r .dying) r = .dying := get_set_self _ hlt
  have hback : ∀ x m o', get (h.set r .dying) x = .live m o' → x ≠ r ∧ get h x = .live m o' := by
    intro x m o' hx
    by_cases e : x = r
    · subst e; rw [hself] at hx; exact nomatch hx
    · exact ⟨e, by rw [hget x e] at hx; exact hx⟩
  have hpfr : ∀ x, pend fr x = 0 := by
    intro x
    rcases hfr with rfl | rfl
    · rfl
    · rw [pend_free, pend_nil]
  have hp : ∀ x, pend (o.del ++ fr ++ ts) x = o.holds.count x + pend ts x := by
    intro x
    rw [pend_append, pend_append, pend_del, hpfr, Nat.add_zero]
  have hdfr : ∀ x, Task.detach x ∉ fr := by
    intro x
    rcases hfr with rfl | rfl <;> simp
  have hr0 := d.counted r
  rw [hr] at hr0
  simp only [pend_release, List.count_cons, List.count_nil, beq_self_eq_true, if_true] at hr0
  have hh0 : o.holds.count r = 0 := by
    have := refs_le_stored hr r
    omega
  have hnofree : Task.free r ∉ ts := by
    intro hm
    have := d.dying r (List.mem_cons_of_mem _ hm)
    rw [hr] at this
    exact nomatch this
  refine ⟨?_, fading_typed hf d.typed, fading_borrowed hf d.borrowed, ?_, ?_, ?_, ?_, ?_, ?_⟩
  · intro x
    by_cases e : x = r
    · subst e
      rw [hself, hp]
      have := hst x
      dsimp only
      omega
    · have := d.counted x
      have h1 : pend (.release r :: ts) x = pend ts x := by
        rw [pend_release]; simp [Ne.symm e]
      rw [h1] at this
      rw [hget x e, hp]
      have h2 := hst x
      cases hc : get h x with
      | live m o' => rw [hc] at this; dsimp only at this ⊢; omega
      | dying => rw [hc] at this; dsimp only at this ⊢; omega
      | freed => rw [hc] at this; dsimp only at this ⊢; omega
  · intro c m cs t hc
    obtain ⟨hne, hc⟩ := hback _ _ _ hc
    rcases d.up c m cs t hc with h1 | ⟨m', cs', p, h1, h2⟩
    · exact .inl (List.mem_append_right _ (by simpa using h1))
    · by_cases e : t = r
      · subst e
        rw [hr] at h1
        cases h1
        refine .inl (List.mem_append_left _ (List.mem_append_left _ ?_))
        simp only [Obj.del, List.mem_flatMap]
        exact ⟨some c, h2, by simp⟩
      · exact .inr ⟨m', cs', p, by rw [hget t e]; exact h1, h2⟩
  · intro t m cs p c m' cs' q ht hc hcc
    exact d.down t m cs p c m' cs' q (hback _ _ _ ht).2 hc (hback _ _ _ hcc).2
  · exact paired_append (paired_append (paired_del o) (paired_of_none hdfr)) (paired_tail d.paired)
  · intro c hc
    rw [List.mem_append, List.mem_append] at hc
    rcases hc with (hc | hc) | hc
    · obtain ⟨cs, p, rfl, hmem⟩ := detach_mem_del hc
      have hne : c ≠ r := by
        intro e
        subst e
        have : 0 < (Obj.tree cs p).holds.count c :=
          List.count_pos_iff.2 (List.mem_filterMap.2 ⟨some c, hmem, rfl⟩)
        omega
      have hcl : ∃ m o', get h c = .live m o' := by
        have h1 := d.counted c
        have h2 := refs_le_stored hr c
        have h3 : 0 < (Obj.tree cs p).holds.count c :=
          List.count_pos_iff.2 (List.mem_filterMap.2 ⟨some c, hmem, rfl⟩)
        cases hg : get h c with
        | live m o' => exact ⟨m, o', rfl⟩
        | dying => rw [hg] at h1; dsimp only at h1; omega
        | freed => rw [hg] at h1; dsimp only at h1; omega
      obtain ⟨m, o', hg⟩ := hcl
      have hk : o'.kind = .tree := d.typed r n _ hr c .tree
        (List.mem_map.2 ⟨c, List.mem_filterMap.2 ⟨some c, hmem, rfl⟩, rfl⟩) m o' hg
      cases o' with
      | tree cs' q =>
        have hq := d.down r n cs p c m cs' q hr hmem hg
        refine ⟨⟨m, cs', q, by rw [hget c hne]; exact hg⟩, fun t k ds p' ht hin => ?_⟩
        obtain ⟨htr, ht⟩ := hback _ _ _ ht
        have := d.down t k ds p' c m cs' q ht hin hg
        rw [hq] at this
        exact htr (Option.some.inj this).symm
      | _ => simp [Obj.kind] at hk
    · exact absurd hc (hdfr c)
    · obtain ⟨⟨m, cs, p, h1⟩, h2⟩ := d.trees c (List.mem_cons_of_mem _ hc)
      have hne : c ≠ r := by
        intro e
        subst e
        obtain ⟨a, b, e⟩ := List.append_of_mem hc
        have hrel := paired_tail d.paired a c b e
        have : 0 < pend ts c := List.count_pos_iff.2 (by rw [e]; simp [hrel])
        omega
      exact ⟨⟨m, cs, p, by rw [hget c hne]; exact h1⟩, fun t k ds p' ht =>
        h2 t k ds p' (hback _ _ _ ht).2⟩
  · intro x
    have h1 : o.del.count (.free x) = 0 := List.count_eq_zero.2 (free_not_mem_del o x)
    have h2 := d.frees x
    rw [List.count_cons] at h2
    rw [List.count_append, List.count_append, h1]
    rcases hfr with rfl | rfl
    · simp only [List.count_nil]; omega
    · by_cases e : x = r
      · subst e
        rw [List.count_eq_zero.2 hnofree]
        simp
      · have : [Task.free r].count (.free x) = 0 := List.count_eq_zero.2 (by simp [e])
        omega
  · intro x hx
    rw [List.mem_append, List.mem_append] at hx
    rcases hx with (hx | hx) | hx
    · exact absurd hx (free_not_mem_del o x)
    · rcases hfr with rfl | rfl
      · simp at hx
      · have : x = r := by simpa using hx
        rw [this]; exact hself
    · have hne : x ≠ r := fun e => hnofree (e ▸ hx)
      rw [hget x hne]
      exact d.dying x (List.mem_cons_of_mem _ hx)

/-- A child is detached. -/
theorem During.detach {h : Heap} {ts : List Task} {ext : List Ref} {r : Ref} {n : Nat}
    {cs : List (Option Ref)} {p : Option Ref}
    (d : During h (.detach r :: ts) ext) (hr : get h r = .live n (.tree cs p)) :
    During (h.set r (.live n (.tree cs none))) ts ext := by
  have hlt := lt_of_live hr
  have hf : Fading h (h.set r (.live n (.tree cs none))) :=
    fading_set hlt (by rw [hr]; exact ⟨Nat.le_refl _, .inr ⟨cs, p, rfl, rfl⟩⟩)
  have hst : ∀ x, stored (h.set r (.live n (.tree cs none))) x = stored h x := by
    intro x
    have := stored_set (.live n (.tree cs none)) x hlt
    rw [hr] at this
    simp only [Cell.refs, Obj.holds] at this
    omega
  have hget : ∀ x, x ≠ r → get (h.set r (.live n (.tree cs none))) x = get h x :=
    fun x hx => get_set_ne _ hx
  have hself := get_set_self (.live n (.tree cs none)) hlt
  have hno := (d.trees r (by simp)).2
  refine ⟨?_, fading_typed hf d.typed, fading_borrowed hf d.borrowed, ?_, ?_, paired_tail d.paired, ?_,
    ?_, ?_⟩
  · intro x
    have := d.counted x
    rw [pend_detach] at this
    by_cases e : x = r
    · subst e; rw [hr] at this; rw [hself, hst]; exact this
    · rw [hget x e, hst]; exact this
  · intro c m cs' t hc
    by_cases e : c = r
    · subst e; rw [hself] at hc; exact nomatch hc
    · rw [hget c e] at hc
      rcases d.up c m cs' t hc with h1 | ⟨m', ds, q, h1, h2⟩
      · refine .inl ?_
        rcases List.mem_cons.1 h1 with h1 | h1
        · exact absurd (Task.detach.inj h1) e
        · exact h1
      · by_cases e' : t = r
        · subst e'
          rw [hr] at h1; cases h1
          exact .inr ⟨n, cs, none, hself, h2⟩
        · exact .inr ⟨m', ds, q, by rw [hget t e']; exact h1, h2⟩
  · intro t m ds q c m' cs' q' ht hc hcc
    have ht' : ∃ q0, get h t = .live m (.tree ds q0) := by
      by_cases e : t = r
      · subst e
        rw [hself] at ht; cases ht
        exact ⟨p, hr⟩
      · rw [hget t e] at ht; exact ⟨q, ht⟩
    obtain ⟨q0, ht'⟩ := ht'
    by_cases e : c = r
    · subst e; exact absurd hc (hno t m ds q0 ht')
    · rw [hget c e] at hcc
      exact d.down t m ds q0 c m' cs' q' ht' hc hcc
  · intro c hc
    obtain ⟨⟨m, ds, q, h1⟩, h2⟩ := d.trees c (List.mem_cons_of_mem _ hc)
    constructor
    · by_cases e : c = r
      · subst e; exact ⟨n, cs, none, hself⟩
      · exact ⟨m, ds, q, by rw [hget c e]; exact h1⟩
    · intro t k ds' p' ht
      by_cases e : t = r
      · subst e
        rw [hself] at ht; cases ht
        exact h2 t n cs p hr
      · rw [hget t e] at ht; exact h2 t k ds' p' ht
  · intro x
    have := d.frees x
    rw [List.count_cons] at this
    omega
  · intro x hx
    have := d.dying x (List.mem_cons_of_mem _ hx)
    by_cases e : x = r
    · subst e; rw [hr] at this; exact nomatch this
    · rw [hget x e]; exact this

/-- A destroyed object is freed. -/
theorem During.free {h : Heap} {ts : List Task} {ext : List Ref} {r : Ref}
    (d : During h (.free r :: ts) ext) : During (h.set r .freed) ts ext := by
  have hr := d.dying r (by simp)
  have hlt := lt_of_dying hr
  have hf : Fading h (h.set r .freed) := fading_set hlt (by rw [hr]; trivial)
  have hst : ∀ x, stored (h.set r .freed) x = stored h x := by
    intro x
    have := stored_set .freed x hlt
    rw [hr] at this
    simp only [Cell.refs] at this
    omega
  have hget : ∀ x, x ≠ r → get (h.set r .freed) x = get h x := fun x hx => get_set_ne _ hx
  have hself := get_set_self .freed hlt
  have hback : ∀ x m o', get (h.set r .freed) x = .live m o' → x ≠ r ∧ get h x = .live m o' := by
    intro x m o' hx
    by_cases e : x = r
    · subst e; rw [hself] at hx; exact nomatch hx
    · exact ⟨e, by rw [hget x e] at hx; exact hx⟩
  have hfwd : ∀ x m o', get h x = .live m o' → get (h.set r .freed) x = .live m o' := by
    intro x m o' hx
    have : x ≠ r := by intro e; subst e; rw [hr] at hx; exact nomatch hx
    rw [hget x this]; exact hx
  refine ⟨?_, fading_typed hf d.typed, fading_borrowed hf d.borrowed, ?_, ?_, paired_tail d.paired, ?_,
    ?_, ?_⟩
  · intro x
    have := d.counted x
    rw [pend_free] at this
    by_cases e : x = r
    · subst e; rw [hr] at this; rw [hself, hst]; exact this
    · rw [hget x e, hst]; exact this
  · intro c m cs t hc
    rcases d.up c m cs t (hback _ _ _ hc).2 with h1 | ⟨m', ds, q, h1, h2⟩
    · exact .inl (by simpa using h1)
    · exact .inr ⟨m', ds, q, hfwd _ _ _ h1, h2⟩
  · intro t m cs p c m' cs' q ht hc hcc
    exact d.down t m cs p c m' cs' q (hback _ _ _ ht).2 hc (hback _ _ _ hcc).2
  · intro c hc
    obtain ⟨⟨m, cs, p, h1⟩, h2⟩ := d.trees c (List.mem_cons_of_mem _ hc)
    exact ⟨⟨m, cs, p, hfwd _ _ _ h1⟩, fun t k ds p' ht => h2 t k ds p' (hback _ _ _ ht).2⟩
  · intro x
    have := d.frees x
    rw [List.count_cons] at this
    omega
  · intro x hx
    have hne : x ≠ r := by
      intro e
      subst e
      have h1 := d.frees x
      rw [List.count_cons] at h1
      have h2 : 0 < ts.count (.free x) := List.count_pos_iff.2 hx
      simp at h1
      omega
    rw [hget x hne]
    exact d.dying x (List.mem_cons_of_mem _ hx)

/-! ## Releases end, and well -/

theorem drain_during : ∀ (fuel : Nat) (h : Heap) (ts : List Task) (ext : List Ref),
    During h ts ext → work h + ts.length ≤ fuel →
      ∃ h', drain fuel h ts = some h' ∧ During h' [] ext ∧ Fading h h'
  | _, h, [], _, d, _ => ⟨h, by unfold drain; rfl, d, Fading.refl h⟩
  | 0, _, _ :: _, _, _, hf => absurd hf (by simp)
  | fuel + 1, h, .release r :: ts, ext, d, hf => by
    have hc := d.counted r
    rw [pend_release] at hc
    simp only [List.count_cons, List.count_nil, beq_self_eq_true, if_true] at hc
    cases hr : get h r with
    | live n o =>
      have hlt := lt_of_live hr
      by_cases hn : n ≤ 1
      · have d' := d.destroy hr hn
          (fr := match o.delRes with | none => [.free r] | some _ => [])
          (by cases o.delRes <;> simp)
        have hw := work_set .dying hlt
        rw [hr] at hw
        simp only [Cell.work] at hw
        obtain ⟨h', e, d'', f⟩ := drain_during fuel _ _ ext d' (by
          simp only [List.length_append, List.length_cons] at hf ⊢
          have : (match o.delRes with | none => [Task.free r] | some _ => []).length ≤ 1 := by
            cases o.delRes <;> simp
          omega)
        refine ⟨h', ?_, d'', (fading_set hlt (by rw [hr]; trivial)).trans f⟩
        rw [drain, hr]
        dsimp only
        rw [if_pos hn]
        exact e
      · have hw := work_set (.live (n - 1) o) hlt
        rw [hr] at hw
        simp only [Cell.work] at hw
        obtain ⟨h', e, d'', f⟩ := drain_during fuel _ _ ext (d.decrement hr hn) (by
          simp only [List.length_cons] at hf
          omega)
        refine ⟨h', ?_, d'', (fading_set hlt (by rw [hr]; exact ⟨by omega, .inl rfl⟩)).trans f⟩
        rw [drain, hr]
        dsimp only
        rw [if_neg hn]
        exact e
    | dying => rw [hr] at hc; dsimp only at hc; omega
    | freed => rw [hr] at hc; dsimp only at hc; omega
  | fuel + 1, h, .detach r :: ts, ext, d, hf => by
    obtain ⟨⟨n, cs, p, hr⟩, -⟩ := d.trees r (by simp)
    have hlt := lt_of_live hr
    have hw := work_set (.live n (.tree cs none)) hlt
    rw [hr] at hw
    simp only [Cell.work, Obj.del] at hw
    obtain ⟨h', e, d'', f⟩ := drain_during fuel _ _ ext (d.detach hr) (by
      simp only [List.length_cons] at hf
      omega)
    refine ⟨h', ?_, d'', (fading_set hlt
      (by rw [hr]; exact ⟨Nat.le_refl _, .inr ⟨cs, p, rfl, rfl⟩⟩)).trans f⟩
    rw [drain, hr]
    exact e
  | fuel + 1, h, .free r :: ts, ext, d, hf => by
    have hr := d.dying r (by simp)
    have hlt := lt_of_dying hr
    have hw := work_set .freed hlt
    rw [hr] at hw
    simp only [Cell.work] at hw
    obtain ⟨h', e, d'', f⟩ := drain_during fuel _ _ ext d.free (by
      simp only [List.length_cons] at hf
      omega)
    refine ⟨h', ?_, d'', (fading_set hlt (by rw [hr]; trivial)).trans f⟩
    rw [drain, hr]
    exact e

/-- Releasing a reference one owns. -/
theorem release_full {h : Heap} {ext : List Ref} {r : Ref} (f : Full h (r :: ext)) :
    ∃ h', (release r h = .ok () h' ∨ ∃ e, release r h = .err e h') ∧ Full h' ext ∧ Fading h h' := by
  obtain ⟨h', e, d, hf⟩ := drain_during (steps h) h [.release r] ext f.during (by simp [steps, work])
  have hc := f.counted r
  cases hr : get h r with
  | live n o =>
    refine ⟨h', ?_, d.full (ranked_fading hf f.ranked), hf⟩
    unfold release
    rw [hr]
    dsimp only
    rw [e]
    dsimp only
    cases (if n ≤ 1 then o.delRes else none) with
    | none => exact .inl rfl
    | some e => exact .inr ⟨e, rfl⟩
  | dying => rw [hr] at hc; simp at hc
  | freed => rw [hr] at hc; simp at hc

end CCS.Own
