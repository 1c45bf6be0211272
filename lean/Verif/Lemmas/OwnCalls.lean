import Verif.Lemmas.OwnOps

/-! # Ownership: creation and mutation -/

namespace CCS.Own

open CCS

/-- An object of a kind. -/
def Kinded (h : Heap) (x : Ref) (k : Kind) : Prop := ∃ n o, get h x = .live n o ∧ o.kind = k

theorem Kinded.alive {h : Heap} {x : Ref} {k : Kind} (a : Kinded h x k) : Alive h x := by
  obtain ⟨n, o, hx, -⟩ := a
  exact ⟨n, o, hx⟩

theorem Kinded.keeps {h h' : Heap} {x : Ref} {k : Kind} (a : Kinded h x k) (s : Keeps h h') :
    Kinded h' x k := by
  obtain ⟨n, o, hx, hk⟩ := a
  obtain ⟨m, hm⟩ := s x n o hx
  exact ⟨m, o, hm, hk⟩

theorem Kinded.lt {h : Heap} {x : Ref} {k : Kind} (a : Kinded h x k) : x < h.length := by
  obtain ⟨n, o, hx, -⟩ := a
  exact lt_of_live hx

theorem Kinded.kind {h : Heap} {x : Ref} {k : Kind} (a : Kinded h x k) {m : Nat} {o : Obj}
    (ho : get h x = .live m o) : o.kind = k := by
  obtain ⟨n, o', hx, hk⟩ := a
  rw [ho] at hx
  cases hx
  exact hk

theorem Full.kinded {h : Heap} {E : List Ref} (f : Full h E) {r x : Ref} {n : Nat} {o : Obj} {k : Kind}
    (hr : get h r = .live n o) (hx : (x, k) ∈ o.wants) : Kinded h x k := by
  obtain ⟨m, o', hm⟩ := f.alive_field hr (mem_holds_of_wants hx)
  exact ⟨m, o', hm, f.typed r n o hr x k hx m o' hm⟩

/-- What the creation of an object leaves. -/
def Made (E : List Ref) (h : Heap) (r : Ref) (h' : Heap) : Prop := Full h' (r :: E) ∧ Keeps h h'

theorem runs_make {h b : Heap} {E F : List Ref} {o : Obj} {R : Heap → Prop} (f : Full h F)
    (e : ∀ x, F.count x = o.holds.count x + E.count x)
    (w : ∀ x k, (x, k) ∈ o.wants → Kinded h x k)
    (b' : ∀ x ∈ o.optima, x ∈ o.history)
    (t : ∀ cs p, o = .tree cs p → p = none ∧ ∀ c, some c ∉ cs) (s : Keeps b h) :
    Runs (alloc o) h (Made E b) R :=
  ⟨f.alloc e (fun x k hx => ⟨(w x k hx).lt, fun _ _ hm => (w x k hx).kind hm⟩) b' t,
    s.trans (keeps_append h _)⟩

/-! ## Creation -/

theorem runs_checkAll {h : Heap} {k : Kind} {R : Heap → Prop} (e : R h) : ∀ (rs : List Ref),
    (∀ r ∈ rs, Alive h r) → Runs (checkAll k rs) h (fun _ h' => h = h' ∧ ∀ r ∈ rs, Kinded h r k) R
  | [], _ => ⟨rfl, by simp⟩
  | r :: rs, a => by
    refine runs_bind (runs_check (a r (by simp)) e) ?_
    rintro o _ ⟨rfl, n, hn, hk⟩
    refine runs_mono (runs_checkAll e rs fun x hx => a x (by simp [hx])) ?_ (fun _ q => q)
    rintro _ _ ⟨rfl, hs⟩
    refine ⟨rfl, fun x hx => ?_⟩
    rcases List.mem_cons.1 hx with rfl | hx
    · exact ⟨n, o, hn, hk⟩
    · exact hs x hx

theorem runs_retainAll : ∀ (rs : List Ref) {h : Heap} {E : List Ref} {k : Nat}, Full h E →
    (∀ r ∈ rs, Alive h r) → Room h (rs.length + k) →
    Runs (retainAll rs) h (fun _ h' => Full h' (rs ++ E) ∧ Keeps h h' ∧ Room h' k) (Unchanged h)
  | [], h, E, k, f, _, hroom => ⟨f, Keeps.refl h, hroom.mono (by simp)⟩
  | r :: rs, h, E, k, f, a, hroom => by
    have ar := a r (by simp)
    obtain ⟨n, o, hr⟩ := ar
    have hroom' : Room h (rs.length + k + 1) := hroom.mono (by simp; omega)
    refine runs_bind (runs_retain ⟨n, o, hr⟩ hroom') ?_
    rintro _ _ rfl
    refine runs_mono (runs_orRelease (runs_retainAll rs (f.bump ⟨n, o, hr⟩)
      (fun x hx => (keeps_bump h r).alive (a x (by simp [hx]))) (room_bump r hroom'))
      (undo_bump hr (f.pos hr) (undo_nil h))) ?_ (fun _ q => q)
    rintro _ h' ⟨f', s', r'⟩
    refine ⟨f'.perm fun x => ?_, (keeps_bump h r).trans s', r'⟩
    simp only [List.count_append, List.count_cons]
    omega

theorem runs_newLeaf {h : Heap} {E : List Ref} (f : Full h E) (l : Leaf) (v : Option Err) :
    Runs (newLeaf l v) h (fun r h' => Made E h r h' ∧ h' = h ++ [.live 1 l.obj] ∧ r = h.length)
      (Unchanged h) := by
  refine runs_bind (runs_verdict (Unchanged.refl h)) ?_
  rintro _ _ ⟨rfl, -⟩
  refine ⟨?_, rfl, rfl⟩
  refine runs_make (R := Unchanged h) f (o := l.obj) ?_ ?_ ?_ ?_ (Keeps.refl h)
  · intro x; cases l <;> simp [Leaf.obj, Obj.holds]
  · intro x k hx; cases l <;> simp [Leaf.obj, Obj.wants] at hx
  · intro x hx; cases l <;> simp [Leaf.obj, Obj.optima] at hx
  · intro cs p he; cases l <;> simp [Leaf.obj] at he
    obtain ⟨rfl, rfl⟩ := he
    exact ⟨rfl, by simp⟩

theorem runs_newComposite {h : Heap} {E : List Ref} (f : Full h E) {ps : List Ref} {v : Option Err}
    (a : ∀ r ∈ ps, Alive h r) (hroom : Room h ps.length) :
    Runs (newComposite ps v) h (Made E h) (Unchanged h) := by
  refine runs_bind (runs_checkAll (Unchanged.refl h) ps a) ?_
  rintro _ _ ⟨rfl, hk⟩
  refine runs_bind (runs_verdict (Unchanged.refl _)) ?_
  rintro _ _ ⟨rfl, -⟩
  refine runs_bind (runs_retainAll (k := 0) ps f a hroom) ?_
  rintro _ h' ⟨f', s', -⟩
  refine runs_make f' (fun x => ?_) (fun x k hx => ?_) (by simp [Obj.optima]) (by simp) s'
  · simp [Obj.holds]
  · simp only [Obj.wants, List.mem_map, Prod.mk.injEq] at hx
    obtain ⟨y, hy, rfl, rfl⟩ := hx
    exact (hk y hy).keeps s'

theorem runs_newVariable {h : Heap} {E : List Ref} (f : Full h E) {p : Ref} (a : Alive h p) {k : Nat}
    (hroom : Room h (k + 1)) :
    Runs (newVariable p) h (fun r h' => Made E h r h' ∧ h' = bump h p ++ [.live 1 (.var p)] ∧
      r = h.length ∧ Room h' k) (Unchanged h) := by
  refine runs_bind (runs_check a (Unchanged.refl h)) ?_
  rintro o _ ⟨rfl, n, hn, hk⟩
  refine runs_bind (runs_retain a hroom) ?_
  rintro _ _ rfl
  refine ⟨?_, rfl, by simp [length_bump], room_append _ (room_bump p hroom)⟩
  have := keeps_bump
  refine runs_make (R := Unchanged h) (E := E) (o := .var p) (f.bump a) (fun x => ?_) (fun x k hx => ?_)
    (by simp [Obj.optima]) (by simp) (keeps_bump _ p)
  · simp [Obj.holds, List.count_cons]; omega
  · simp only [Obj.wants, List.mem_singleton, Prod.mk.injEq] at hx
    obtain ⟨rfl, rfl⟩ := hx
    exact Kinded.keeps ⟨n, o, hn, hk⟩ (keeps_bump _ _)

theorem runs_checkOperands {h : Heap} {R : Heap → Prop} (e : R h) : ∀ (ns : List Operand),
    (∀ r, .object r ∈ ns → Alive h r) → Runs (checkOperands ns) h (fun _ h' => h = h') R
  | [], _ => rfl
  | .object r :: ns, a => by
    refine runs_bind (runs_load (a r (by simp))) ?_
    rintro o _ ⟨rfl, n, hn⟩
    split
    · exact runs_checkOperands e ns fun x hx => a x (by simp [hx])
    · exact e
  | .value v :: ns, a => runs_checkOperands e ns fun x hx => a x (by simp [hx])

theorem runs_takeOperands : ∀ (ns : List Operand) {h : Heap} {E : List Ref} {k : Nat}, Full h E →
    (∀ r, .object r ∈ ns → Alive h r) → Room h (ns.length + k) →
    Runs (takeOperands ns) h (fun es h' => Full h' (es ++ E) ∧ Keeps h h' ∧
      ∀ e ∈ es, Kinded h' e .expression) (Unchanged h)
  | [], h, E, k, f, _, _ => ⟨f, Keeps.refl h, by simp⟩
  | .object r :: ns, h, E, k, f, a, hroom => by
    have hroom' : Room h (ns.length + k + 1) := hroom.mono (by simp; omega)
    have ar := a r (by simp)
    refine runs_bind (runs_load ar) ?_
    rintro o _ ⟨rfl, n, hn⟩
    have tail : ∀ (e : Ref) (h1 : Heap), Full h1 (e :: E) → Keeps h h1 → Room h1 (ns.length + k) →
        Kinded h1 e .expression → Undo [e] h1 h →
        Runs (do let es ← orRelease (takeOperands ns) [e]; pure (e :: es)) h1
          (fun es h' => Full h' (es ++ E) ∧ Keeps h h' ∧ ∀ e ∈ es, Kinded h' e .expression)
          (Unchanged h) := by
      intro e h1 f1 s1 r1 k1 u1
      refine runs_bind (runs_orRelease (runs_takeOperands ns f1
        (fun x hx => s1.alive (a x (by simp [hx]))) r1) u1) ?_
      rintro es h2 ⟨f2, s2, k2⟩
      refine ⟨f2.perm fun x => ?_, s1.trans s2, ?_⟩
      · simp only [List.count_append, List.count_cons, List.cons_append]; omega
      · intro x hx
        rcases List.mem_cons.1 hx with rfl | hx
        · exact k1.keeps s2
        · exact k2 x hx
    by_cases hk : o.kind = .expression
    · rw [if_pos hk]
      refine runs_bind (P := fun e h' => e = r ∧ h' = bump h r) ?_ ?_
      · refine runs_bind (runs_retain ar hroom') ?_
        rintro _ _ rfl
        exact ⟨rfl, rfl⟩
      · rintro _ _ ⟨rfl, rfl⟩
        exact tail _ _ (f.bump ar) (keeps_bump h _) (room_bump _ hroom')
          (Kinded.keeps ⟨n, o, hn, hk⟩ (keeps_bump _ _)) (undo_bump hn (f.pos hn) (undo_nil h))
    · rw [if_neg hk]
      refine runs_bind (runs_newVariable f ar hroom') ?_
      rintro e h1 ⟨⟨f1, s1⟩, rfl, rfl, r1⟩
      refine tail _ _ f1 s1 r1 ⟨1, .var r, ?_, rfl⟩
        (undo_single (o := .var r) hn (f.pos hn) rfl rfl (undo_nil h))
      rw [← length_bump h r, get_append_self]
  | .value v :: ns, h, E, k, f, a, hroom => by
    refine runs_bind (runs_newLeaf f .literal v) ?_
    rintro e h1 ⟨⟨f1, s1⟩, rfl, rfl⟩
    have u1 : Undo [h.length] (h ++ [.live 1 Leaf.literal.obj]) h :=
      undo_leaf (o := .literal) rfl rfl (undo_nil h)
    refine runs_bind (runs_orRelease (runs_takeOperands ns (k := k) f1
      (fun x hx => s1.alive (a x (by simp [hx]))) (room_append _ (hroom.mono (by simp)))) u1) ?_
    rintro es h2 ⟨f2, s2, k2⟩
    refine ⟨f2.perm fun x => ?_, s1.trans s2, ?_⟩
    · simp only [List.count_append, List.count_cons, List.cons_append]; omega
    · intro x hx
      rcases List.mem_cons.1 hx with rfl | hx
      · exact Kinded.keeps ⟨1, .literal, get_append_self h _, rfl⟩ s2
      · exact k2 x hx

theorem runs_newExpression {h : Heap} {E : List Ref} (f : Full h E) {ns : List Operand} {v : Option Err}
    (a : ∀ r, .object r ∈ ns → Alive h r) (hroom : Room h ns.length) :
    Runs (newExpression ns v) h (Made E h) (Unchanged h) := by
  refine runs_bind (runs_verdict (Unchanged.refl h)) ?_
  rintro _ _ ⟨rfl, -⟩
  refine runs_bind (runs_checkOperands (Unchanged.refl _) ns a) ?_
  rintro _ _ rfl
  refine runs_bind (runs_takeOperands (k := 0) ns f a hroom) ?_
  rintro es h' ⟨f', s', k'⟩
  refine runs_make f' (fun x => ?_) (fun x k hx => ?_) (by simp [Obj.optima]) (by simp) s'
  · simp [Obj.holds]
  · simp only [Obj.wants, List.mem_map, Prod.mk.injEq] at hx
    obtain ⟨y, hy, rfl, rfl⟩ := hx
    exact k' y hy

theorem runs_newConfigurationSpace {h : Heap} {E : List Ref} (f : Full h E) :
    Runs newConfigurationSpace h (Made E h) (Unchanged h) := by
  refine runs_bind (P := fun r h' => Made E h r h' ∧ Kinded h' r .rng)
    ⟨runs_make (R := Unchanged h) f (by simp [Obj.holds]) (by simp [Obj.wants]) (by simp [Obj.optima])
      (by simp) (Keeps.refl h), ⟨1, .rng, get_append_self h _, rfl⟩⟩ ?_
  rintro g h' ⟨⟨f', s'⟩, k'⟩
  refine runs_make f' (fun x => ?_) (fun x k hx => ?_) (by simp [Obj.optima]) (by simp) s'
  · simp [Obj.holds, List.count_cons]; omega
  · simp only [Obj.wants, List.map_nil, List.filterMap_nil, List.append_nil, List.mem_singleton,
      Prod.mk.injEq] at hx
    obtain ⟨rfl, rfl⟩ := hx
    exact k'

/-- Creating a configuration: the error path with a bad value keeps a reference on the space. -/
theorem runs_newConfiguration {h : Heap} {E : List Ref} (f : Full h E) {s : Ref} (a : Alive h s)
    {v w : Option Err} {k : Nat} (hroom : Room h (k + 1)) :
    Runs (newConfiguration s v w) h (fun r h' => Made E h r h' ∧
        h' = bump h s ++ [.live 1 (.configuration s)] ∧ r = h.length ∧ Room h' k ∧ w = none)
      (fun h' => Unchanged h h' ∨ (w.isSome ∧ Full h' (s :: E) ∧ h' = bump h s)) := by
  refine runs_bind (runs_check a (.inl (Unchanged.refl h))) ?_
  rintro o _ ⟨rfl, n, hn, hk⟩
  refine runs_bind (runs_verdict (.inl (Unchanged.refl _))) ?_
  rintro _ _ ⟨rfl, -⟩
  refine runs_bind (runs_retain a hroom) ?_
  rintro _ _ rfl
  cases w with
  | some e => exact .inr ⟨rfl, f.bump a, rfl⟩
  | none =>
    refine ⟨?_, rfl, by simp [length_bump], room_append _ (room_bump s hroom), rfl⟩
    refine runs_make (R := Unchanged h) (E := E) (o := .configuration s) (f.bump a) (fun x => ?_)
      (fun x k hx => ?_) (by simp [Obj.optima]) (by simp) (keeps_bump _ s)
    · simp [Obj.holds, List.count_cons]; omega
    · simp only [Obj.wants, List.mem_singleton, Prod.mk.injEq] at hx
      obtain ⟨rfl, rfl⟩ := hx
      exact Kinded.keeps ⟨n, o, hn, hk⟩ (keeps_bump _ _)

/-- Without values to refuse. -/
theorem runs_newConfiguration_none {h : Heap} {E : List Ref} (f : Full h E) {s : Ref} (a : Alive h s)
    {k : Nat} (hroom : Room h (k + 1)) :
    Runs (newConfiguration s none none) h (fun r h' => Made E h r h' ∧
        h' = bump h s ++ [.live 1 (.configuration s)] ∧ r = h.length ∧ Room h' k)
      (Unchanged h) :=
  runs_mono (runs_newConfiguration f a hroom) (fun _ _ q => ⟨q.1, q.2.1, q.2.2.1, q.2.2.2.1⟩)
    (fun _ q => q.resolve_right (by simp))

theorem runs_newFeatures {h : Heap} {E : List Ref} (f : Full h E) {s : Ref} (a : Alive h s)
    {v w : Option Err} (hroom : Room h 1) :
    Runs (newFeatures s v w) h (Made E h) (Unchanged h) := by
  refine runs_bind (runs_check a (Unchanged.refl h)) ?_
  rintro o _ ⟨rfl, n, hn, hk⟩
  refine runs_bind (runs_verdict (Unchanged.refl _)) ?_
  rintro _ _ ⟨rfl, -⟩
  refine runs_bind (runs_retain a hroom) ?_
  rintro _ _ rfl
  refine runs_bind (runs_orRelease (runs_verdict (Unchanged.refl _))
    (undo_bump hn (f.pos hn) (undo_nil _))) ?_
  rintro _ _ ⟨rfl, -⟩
  refine runs_make (E := E) (o := .features s) (f.bump a) (fun x => ?_)
    (fun x k hx => ?_) (by simp [Obj.optima]) (by simp) (keeps_bump _ s)
  · simp [Obj.holds, List.count_cons]; omega
  · simp only [Obj.wants, List.mem_singleton, Prod.mk.injEq] at hx
    obtain ⟨rfl, rfl⟩ := hx
    exact Kinded.keeps ⟨n, o, hn, hk⟩ (keeps_bump _ _)

/-- Two objects retained one after the other, the second given back if something else fails. -/
theorem undo_bump2 {h : Heap} {E : List Ref} (f : Full h E) {a b : Ref} (ha : Alive h a)
    (hb : Alive h b) : Undo [b, a] (bump (bump h a) b) h := by
  obtain ⟨n, o, hn⟩ := ha
  have f1 := f.bump ⟨n, o, hn⟩
  obtain ⟨m, p, hm⟩ := (keeps_bump h a).alive hb
  exact undo_bump hm (f1.pos hm) (undo_bump hn (f.pos hn) (undo_nil h))

theorem undo_bump1 {h : Heap} {E : List Ref} (f : Full h E) {a : Ref} (ha : Alive h a) :
    Undo [a] (bump h a) h := by
  obtain ⟨n, o, hn⟩ := ha
  exact undo_bump hn (f.pos hn) (undo_nil h)

theorem undo_bump3 {h : Heap} {E : List Ref} (f : Full h E) {a b c : Ref} (ha : Alive h a)
    (hb : Alive h b) (hc : Alive h c) : Undo [c, b, a] (bump (bump (bump h a) b) c) h := by
  have f1 := f.bump ha
  have f2 := f1.bump ((keeps_bump h a).alive hb)
  obtain ⟨m, p, hm⟩ := ((keeps_bump h a).trans (keeps_bump _ b)).alive hc
  exact undo_bump hm (f2.pos hm) (undo_bump2 f ha hb)

/-- Retaining two objects, then creating one that owns them. -/
theorem runs_pair {h : Heap} {E : List Ref} (f : Full h E) {a b : Ref} {ka kb : Kind}
    (ha : Kinded h a ka) (hb : Kinded h b kb) {w : Option Err} {o : Obj} (hroom : Room h 2)
    (hh : o.holds = [a, b]) (hw : o.wants = [(a, ka), (b, kb)]) (ho : o.optima = [])
    (ht : o.kind ≠ .tree) :
    Runs (do retain a; orRelease (retain b) [a]; orRelease (verdict w) [b, a]; alloc o) h
      (Made E h) (Unchanged h) := by
  refine runs_bind (runs_retain ha.alive hroom) ?_
  rintro _ _ rfl
  have hb1 := hb.keeps (keeps_bump h a)
  refine runs_bind (runs_orRelease (runs_retain hb1.alive (room_bump a hroom)) (undo_bump1 f ha.alive)) ?_
  rintro _ _ rfl
  refine runs_bind (runs_orRelease (runs_verdict (Unchanged.refl _))
    (undo_bump2 f ha.alive hb.alive)) ?_
  rintro _ _ ⟨rfl, -⟩
  refine runs_make ((f.bump ha.alive).bump hb1.alive) (fun x => ?_) (fun x k hx => ?_) (by simp [ho])
    (fun cs p e => absurd (by rw [e]; rfl) ht) ((keeps_bump h a).trans (keeps_bump _ b))
  · rw [hh]; simp only [List.count_cons, List.count_nil]; omega
  · rw [hw] at hx
    simp only [List.mem_cons, Prod.mk.injEq, List.not_mem_nil, or_false] at hx
    rcases hx with ⟨rfl, rfl⟩ | ⟨rfl, rfl⟩
    · exact ha.keeps ((keeps_bump h _).trans (keeps_bump _ _))
    · exact hb1.keeps (keeps_bump _ _)

/-- The same with three. -/
theorem runs_triple {h : Heap} {E : List Ref} (f : Full h E) {a b c : Ref} {ka kb kc : Kind}
    (ha : Kinded h a ka) (hb : Kinded h b kb) (hc : Kinded h c kc) {w : Option Err} {o : Obj}
    (hroom : Room h 3) (hh : o.holds = [a, b, c]) (hw : o.wants = [(a, ka), (b, kb), (c, kc)])
    (ho : o.optima = []) (ht : o.kind ≠ .tree) :
    Runs (do retain a; orRelease (retain b) [a]; orRelease (retain c) [b, a];
             orRelease (verdict w) [c, b, a]; alloc o) h (Made E h) (Unchanged h) := by
  refine runs_bind (runs_retain ha.alive hroom) ?_
  rintro _ _ rfl
  have hb1 := hb.keeps (keeps_bump h a)
  refine runs_bind (runs_orRelease (runs_retain hb1.alive (room_bump a hroom)) (undo_bump1 f ha.alive)) ?_
  rintro _ _ rfl
  have s2 := (keeps_bump h a).trans (keeps_bump _ b)
  have hc2 := hc.keeps s2
  refine runs_bind (runs_orRelease (runs_retain hc2.alive (room_bump b (room_bump a hroom)))
    (undo_bump2 f ha.alive hb.alive)) ?_
  rintro _ _ rfl
  refine runs_bind (runs_orRelease (runs_verdict (Unchanged.refl _))
    (undo_bump3 f ha.alive hb.alive hc.alive)) ?_
  rintro _ _ ⟨rfl, -⟩
  have s3 := s2.trans (keeps_bump _ c)
  refine runs_make (((f.bump ha.alive).bump hb1.alive).bump hc2.alive) (fun x => ?_) (fun x k hx => ?_)
    (by simp [ho]) (fun cs p e => absurd (by rw [e]; rfl) ht) s3
  · rw [hh]; simp only [List.count_cons, List.count_nil]; omega
  · rw [hw] at hx
    simp only [List.mem_cons, Prod.mk.injEq, List.not_mem_nil, or_false] at hx
    rcases hx with ⟨rfl, rfl⟩ | ⟨rfl, rfl⟩ | ⟨rfl, rfl⟩
    · exact ha.keeps s3
    · exact hb.keeps s3
    · exact hc.keeps s3

theorem runs_newEvaluation {h : Heap} {E : List Ref} (f : Full h E) {os c : Ref} (a : Alive h os)
    (b : Alive h c) {v w : Option Err} (hroom : Room h 2) :
    Runs (newEvaluation os c v w) h (Made E h) (Unchanged h) := by
  refine runs_bind (runs_check a (Unchanged.refl h)) ?_
  rintro o _ ⟨rfl, n, hn, hk⟩
  refine runs_bind (runs_check b (Unchanged.refl _)) ?_
  rintro o' _ ⟨rfl, n', hn', hk'⟩
  refine runs_bind (runs_verdict (Unchanged.refl _)) ?_
  rintro _ _ ⟨rfl, -⟩
  exact runs_pair f ⟨n, o, hn, hk⟩ ⟨n', o', hn', hk'⟩ hroom rfl rfl rfl (by simp [Obj.kind])

theorem runs_newTreeEvaluation {h : Heap} {E : List Ref} (f : Full h E) {os c : Ref} (a : Alive h os)
    (b : Alive h c) {v w : Option Err} (hroom : Room h 2) :
    Runs (newTreeEvaluation os c v w) h (Made E h) (Unchanged h) := by
  refine runs_bind (runs_check a (Unchanged.refl h)) ?_
  rintro o _ ⟨rfl, n, hn, hk⟩
  refine runs_bind (runs_check b (Unchanged.refl _)) ?_
  rintro o' _ ⟨rfl, n', hn', hk'⟩
  refine runs_bind (runs_verdict (Unchanged.refl _)) ?_
  rintro _ _ ⟨rfl, -⟩
  exact runs_pair f ⟨n, o, hn, hk⟩ ⟨n', o', hn', hk'⟩ hroom rfl rfl rfl (by simp [Obj.kind])

theorem runs_newFeaturesEvaluation {h : Heap} {E : List Ref} (f : Full h E) {os c g : Ref}
    (a : Alive h os) (b : Alive h c) (d : Alive h g) {v w : Option Err} (hroom : Room h 3) :
    Runs (newFeaturesEvaluation os c g v w) h (Made E h) (Unchanged h) := by
  refine runs_bind (runs_check a (Unchanged.refl h)) ?_
  rintro o _ ⟨rfl, n, hn, hk⟩
  refine runs_bind (runs_check b (Unchanged.refl _)) ?_
  rintro o' _ ⟨rfl, n', hn', hk'⟩
  refine runs_bind (runs_check d (Unchanged.refl _)) ?_
  rintro o'' _ ⟨rfl, n'', hn'', hk''⟩
  refine runs_bind (runs_verdict (Unchanged.refl _)) ?_
  rintro _ _ ⟨rfl, -⟩
  exact runs_triple f ⟨n, o, hn, hk⟩ ⟨n', o', hn', hk'⟩ ⟨n'', o'', hn'', hk''⟩ hroom rfl rfl rfl
    (by simp [Obj.kind])

theorem runs_newTuner {h : Heap} {E : List Ref} (f : Full h E) {cs os : Ref} (a : Alive h cs)
    (b : Alive h os) {o : Obj} (hroom : Room h 2) (hh : o.holds = [cs, os])
    (hw : o.wants = [(cs, .configurationSpace), (os, .objectiveSpace)]) (ho : o.optima = [])
    (ht : o.kind ≠ .tree) :
    Runs (newTuner cs os o) h (Made E h) (Unchanged h) := by
  refine runs_bind (runs_check a (Unchanged.refl h)) ?_
  rintro q _ ⟨rfl, n, hn, hk⟩
  refine runs_bind (runs_check b (Unchanged.refl _)) ?_
  rintro q' _ ⟨rfl, n', hn', hk'⟩
  exact runs_pair (w := none) f ⟨n, q, hn, hk⟩ ⟨n', q', hn', hk'⟩ hroom hh hw ho ht

theorem runs_newTreeTuner {h : Heap} {E : List Ref} (f : Full h E) {ts os : Ref} (a : Alive h ts)
    (b : Alive h os) {o : Obj} (hroom : Room h 2) (hh : o.holds = [ts, os])
    (hw : o.wants = [(ts, .treeSpace), (os, .objectiveSpace)]) (ho : o.optima = [])
    (ht : o.kind ≠ .tree) :
    Runs (newTreeTuner ts os o) h (Made E h) (Unchanged h) := by
  refine runs_bind (runs_check a (Unchanged.refl h)) ?_
  rintro q _ ⟨rfl, n, hn, hk⟩
  refine runs_bind (runs_check b (Unchanged.refl _)) ?_
  rintro q' _ ⟨rfl, n', hn', hk'⟩
  exact runs_pair (w := none) f ⟨n, q, hn, hk⟩ ⟨n', q', hn', hk'⟩ hroom hh hw ho ht

theorem runs_newFeaturesTuner {h : Heap} {E : List Ref} (f : Full h E) {cs os fs : Ref} (a : Alive h cs)
    (b : Alive h os) (c : Alive h fs) {o : Obj} (hroom : Room h 3) (hh : o.holds = [cs, os, fs])
    (hw : o.wants = [(cs, .configurationSpace), (os, .objectiveSpace), (fs, .featuresSpace)])
    (ho : o.optima = []) (ht : o.kind ≠ .tree) :
    Runs (newFeaturesTuner cs os fs o) h (Made E h) (Unchanged h) := by
  refine runs_bind (runs_check a (Unchanged.refl h)) ?_
  rintro q _ ⟨rfl, n, hn, hk⟩
  refine runs_bind (runs_check c (Unchanged.refl _)) ?_
  rintro q' _ ⟨rfl, n', hn', hk'⟩
  refine runs_bind (runs_check b (Unchanged.refl _)) ?_
  rintro q'' _ ⟨rfl, n'', hn'', hk''⟩
  exact runs_triple (w := none) f ⟨n, q, hn, hk⟩ ⟨n'', q'', hn'', hk''⟩ ⟨n', q', hn', hk'⟩ hroom hh hw ho
    ht

theorem runs_newTreeSpace {h : Heap} {E : List Ref} (f : Full h E) {t : Ref} (a : Alive h t)
    {o : Ref → Obj} (hroom : Room h 1) (hh : ∀ g, (o g).holds = [g, t])
    (hw : ∀ g, (o g).wants = [(g, .rng), (t, .tree)]) (ho : ∀ g, (o g).optima = [])
    (ht : ∀ g, (o g).kind ≠ .tree) :
    Runs (newTreeSpace t o) h (Made E h) (Unchanged h) := by
  refine runs_bind (runs_check a (Unchanged.refl h)) ?_
  rintro q _ ⟨rfl, n, hn, hk⟩
  refine runs_bind (P := fun r h' => Made E h r h' ∧ h' = h ++ [.live 1 .rng] ∧ r = h.length)
    ⟨runs_make (R := Unchanged h) f (by simp [Obj.holds]) (by simp [Obj.wants]) (by simp [Obj.optima])
      (by simp) (Keeps.refl h), rfl, rfl⟩ ?_
  rintro g h1 ⟨⟨f1, s1⟩, e1, rfl⟩
  have a1 := s1.alive a
  have r1 : Room h1 1 := by rw [e1]; exact room_append _ hroom
  have u1 : Undo [h.length] h1 h := by rw [e1]; exact undo_leaf (o := .rng) rfl rfl (undo_nil h)
  have kg : Kinded h1 h.length .rng := ⟨1, .rng, by rw [e1]; exact get_append_self h _, rfl⟩
  refine runs_bind (runs_orRelease (runs_retain a1 r1) u1) ?_
  rintro _ _ rfl
  refine runs_make (f1.bump a1) (fun x => ?_) (fun x k hx => ?_) (by simp [ho])
    (fun cs p e => absurd (by rw [e]; rfl) (ht h.length)) (s1.trans (keeps_bump _ t))
  · rw [hh]; simp only [List.count_cons, List.count_nil]; omega
  · rw [hw] at hx
    simp only [List.mem_cons, Prod.mk.injEq, List.not_mem_nil, or_false] at hx
    rcases hx with ⟨rfl, rfl⟩ | ⟨rfl, rfl⟩
    · exact kg.keeps (keeps_bump _ _)
    · exact Kinded.keeps ⟨n, q, hn, hk⟩ (s1.trans (keeps_bump _ _))

theorem runs_newTreeConfiguration {h : Heap} {E : List Ref} (f : Full h E) {s : Ref} (a : Alive h s)
    {k : Nat} (hroom : Room h (k + 1)) :
    Runs (newTreeConfiguration s) h (fun r h' => Made E h r h' ∧ Room h' k) (Unchanged h) := by
  refine runs_bind (runs_check a (Unchanged.refl h)) ?_
  rintro o _ ⟨rfl, n, hn, hk⟩
  refine runs_bind (runs_retain a hroom) ?_
  rintro _ _ rfl
  refine ⟨?_, room_append _ (room_bump s hroom)⟩
  refine runs_make (R := Unchanged h) (E := E) (o := .treeConfiguration s) (f.bump a) (fun x => ?_)
    (fun x k hx => ?_) (by simp [Obj.optima]) (by simp) (keeps_bump _ s)
  · simp [Obj.holds, List.count_cons]; omega
  · simp only [Obj.wants, List.mem_singleton, Prod.mk.injEq] at hx
    obtain ⟨rfl, rfl⟩ := hx
    exact Kinded.keeps ⟨n, o, hn, hk⟩ (keeps_bump _ _)

end CCS.Own
