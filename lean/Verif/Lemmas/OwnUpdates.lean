import Verif.Lemmas.OwnCalls

/-! # Ownership: spaces, tuners, maps, trees -/

namespace CCS.Own

open CCS

/-! ## Kinds -/

theorem kind_configurationSpace {o : Obj} (h : o.kind = .configurationSpace) :
    ∃ g ps cl ds, o = .configurationSpace g ps cl ds := by
  cases o <;> simp [Obj.kind] at h
  exact ⟨_, _, _, _, rfl⟩

theorem kind_featuresSpace {o : Obj} (h : o.kind = .featuresSpace) : ∃ ps, o = .featuresSpace ps := by
  cases o <;> simp [Obj.kind] at h
  exact ⟨_, rfl⟩

theorem kind_objectiveSpace {o : Obj} (h : o.kind = .objectiveSpace) :
    ∃ ps os, o = .objectiveSpace ps os := by
  cases o <;> simp [Obj.kind] at h
  exact ⟨_, _, rfl⟩

theorem kind_map {o : Obj} (h : o.kind = .map) : ∃ es, o = .map es := by
  cases o <;> simp [Obj.kind] at h
  exact ⟨_, rfl⟩

theorem kind_tree {o : Obj} (h : o.kind = .tree) : ∃ cs p, o = .tree cs p := by
  cases o <;> simp [Obj.kind] at h
  exact ⟨_, _, rfl⟩

theorem kind_treeSpace {o : Obj} (h : o.kind = .treeSpace) :
    (∃ g t, o = .treeSpace g t) ∨ ∃ g t d, o = .dynamicTreeSpace g t d := by
  cases o <;> simp [Obj.kind] at h
  · exact .inl ⟨_, _, rfl⟩
  · exact .inr ⟨_, _, _, rfl⟩

theorem kind_rng {o : Obj} (h : o.kind = .rng) : o = .rng := by
  cases o <;> simp [Obj.kind] at h
  rfl

/-- Writing an object, given what is new in it. -/
theorem Full.write {h : Heap} {E F : List Ref} {r : Ref} {n : Nat} {o o' : Obj} (f : Full h F)
    (hr : get h r = .live n o)
    (e : ∀ x, F.count x + o.holds.count x = o'.holds.count x + E.count x)
    (hk : o'.kind = o.kind) (hnt : o'.nested = false) {new : List (Ref × Kind)}
    (hn : ∀ y ∈ new, Kinded h y.1 y.2) (w : ∀ y ∈ o'.wants, y ∈ o.wants ∨ y ∈ new)
    (b : ∀ x ∈ o'.optima, x ∈ o'.history) :
    Full (h.set r (.live n o')) E := by
  refine f.store hr e hk hnt (fun x k hx m o'' hm => ?_) b
  rcases w _ hx with hx | hx
  · exact f.typed r n o hr x k hx m o'' hm
  · exact (hn _ hx).kind hm

/-! ## Spaces -/

/-- A generator replaced by another. -/
theorem runs_swapRng {h : Heap} {E : List Ref} (f : Full h E) {s g old : Ref} {n : Nat} {o o' : Obj}
    (hs : get h s = .live n o) (hg : Kinded h g .rng) (hroom : Room h 1)
    (ho : (old, .rng) ∈ o.wants) (e : ∀ x, o'.holds.count x + [old].count x = o.holds.count x + [g].count x)
    (hk : o'.kind = o.kind) (hnt : o'.nested = false) (hnr : o.kind ≠ .rng)
    (w : ∀ y ∈ o'.wants, y ∈ o.wants ∨ y ∈ [(g, Kind.rng)]) (b : o'.optima = []) :
    Runs (do retain g; store s o'; release old) h (fun _ h' => Full h' E) (Unchanged h) := by
  refine runs_bind (runs_retain hg.alive hroom) ?_
  rintro _ _ rfl
  obtain ⟨m, hm⟩ := keeps_bump h g s n o hs
  refine runs_bind (runs_store hm) ?_
  rintro _ _ rfl
  have f1 := f.bump hg.alive
  have f2 : Full ((bump h g).set s (.live m o')) (old :: E) := by
    refine f1.write hm (fun x => ?_) hk hnt (new := [(g, .rng)])
      (by simpa using hg.keeps (keeps_bump h g)) w (by simp [b])
    have := e x
    simp only [List.count_cons, List.count_nil] at this ⊢
    omega
  have ko := f1.kinded hm ho
  have hne : old ≠ s := by
    intro e'
    subst e'
    exact hnr (ko.kind hm)
  obtain ⟨k, q, hq, hqk⟩ := ko
  have hq' : get ((bump h g).set s (.live m o')) old = .live k q := by rw [get_set_ne _ hne]; exact hq
  refine runs_mono (runs_release_ok f2 hq' (by rw [kind_rng hqk]; rfl)) (fun _ _ q => q.1) (fun _ q => q)

theorem runs_setRng {h : Heap} {E : List Ref} (f : Full h E) {s g : Ref} (a : Alive h s)
    (b : Alive h g) (hroom : Room h 1) :
    Runs (setRng s g) h (fun _ h' => Full h' E) (Unchanged h) := by
  refine runs_bind (runs_check a (Unchanged.refl h)) ?_
  rintro o _ ⟨rfl, n, hn, hk⟩
  refine runs_bind (runs_check b (Unchanged.refl h)) ?_
  rintro q _ ⟨rfl, n', hn', hk'⟩
  obtain ⟨old, ps, cl, ds, rfl⟩ := kind_configurationSpace hk
  refine runs_swapRng f hn ⟨n', q, hn', hk'⟩ hroom (by simp [Obj.wants]) (fun x => ?_) rfl
    rfl (by simp [Obj.kind]) ?_ rfl
  · simp only [Obj.holds, List.count_cons, List.count_nil]; omega
  · intro y hy
    simp only [Obj.wants, List.mem_cons] at hy ⊢
    rcases hy with hy | hy
    · exact .inr (by simp [hy])
    · exact .inl (.inr hy)

theorem runs_setTreeRng {h : Heap} {E : List Ref} (f : Full h E) {s g : Ref} (a : Alive h s)
    (b : Alive h g) (hroom : Room h 1) :
    Runs (setTreeRng s g) h (fun _ h' => Full h' E) (Unchanged h) := by
  refine runs_bind (runs_check a (Unchanged.refl h)) ?_
  rintro o _ ⟨rfl, n, hn, hk⟩
  refine runs_bind (runs_check b (Unchanged.refl h)) ?_
  rintro q _ ⟨rfl, n', hn', hk'⟩
  rcases kind_treeSpace hk with ⟨old, t, rfl⟩ | ⟨old, t, d, rfl⟩
  · refine runs_swapRng f hn ⟨n', q, hn', hk'⟩ hroom (by simp [Obj.wants]) (fun x => ?_) rfl
      rfl (by simp [Obj.kind]) ?_ rfl
    · simp only [Obj.holds, List.count_cons, List.count_nil]; omega
    · intro y hy
      simp only [Obj.wants, List.mem_cons, List.not_mem_nil, or_false] at hy ⊢
      rcases hy with hy | hy
      · exact .inr hy
      · exact .inl (.inr hy)
  · refine runs_swapRng f hn ⟨n', q, hn', hk'⟩ hroom (by simp [Obj.wants]) (fun x => ?_) rfl
      rfl (by simp [Obj.kind]) ?_ rfl
    · simp only [Obj.holds, List.count_cons, List.count_nil]; omega
    · intro y hy
      simp only [Obj.wants, List.mem_cons, List.not_mem_nil, or_false] at hy ⊢
      rcases hy with hy | hy
      · exact .inr hy
      · exact .inl (.inr hy)

theorem runs_addParameter {h : Heap} {E : List Ref} (f : Full h E) {s p : Ref} {d : Option Ref}
    (a : Alive h s) (b : Alive h p) (c : ∀ x, d = some x → Alive h x) {v w : Option Err}
    (hroom : Room h 2) :
    Runs (addParameter s p d v w) h (fun _ h' => Full h' E) (Unchanged h) := by
  refine runs_bind (runs_check a (Unchanged.refl h)) ?_
  rintro o _ ⟨rfl, n, hn, hk⟩
  refine runs_bind (runs_check b (Unchanged.refl h)) ?_
  rintro q _ ⟨rfl, n', hn', hk'⟩
  refine runs_bind (runs_verdict (Unchanged.refl _)) ?_
  rintro _ _ ⟨rfl, -⟩
  obtain ⟨g, ps, cl, ds, rfl⟩ := kind_configurationSpace hk
  refine runs_bind (runs_retain b hroom) ?_
  rintro _ _ rfl
  have f1 := f.bump b
  have s1 := keeps_bump h p
  have inner : Runs (match d with
      | some d => do let _ ← check d .distribution; verdict w; retain d; pure d
      | none => newLeaf .distribution w) (bump h p)
      (fun d h' => Full h' (d :: p :: E) ∧ Keeps (bump h p) h' ∧ Kinded h' d .distribution)
      (Unchanged (bump h p)) := by
    cases d with
    | none =>
      refine runs_mono (runs_newLeaf f1 .distribution w) ?_ (fun _ q => q)
      rintro x h' ⟨⟨f', s'⟩, rfl, rfl⟩
      exact ⟨f', s', 1, .distribution, get_append_self _ _, rfl⟩
    | some d =>
      have ad := s1.alive (c d rfl)
      refine runs_bind (runs_check ad (Unchanged.refl _)) ?_
      rintro q' _ ⟨rfl, n'', hn'', hk''⟩
      refine runs_bind (runs_verdict (Unchanged.refl _)) ?_
      rintro _ _ ⟨rfl, -⟩
      refine runs_bind (runs_retain ad (room_bump p hroom)) ?_
      rintro _ _ rfl
      exact ⟨f1.bump ad, keeps_bump _ _, Kinded.keeps ⟨n'', q', hn'', hk''⟩ (keeps_bump _ _)⟩
  refine runs_bind (runs_orRelease inner (undo_bump hn' (f.pos hn') (undo_nil h))) ?_
  rintro d' h2 ⟨f2, s2, k2⟩
  obtain ⟨m, hm⟩ := (s1.trans s2) s n _ hn
  refine runs_mono (runs_store hm) ?_ (fun _ q => q)
  rintro _ _ rfl
  refine f2.write hm (fun x => ?_) rfl rfl
    (new := [(p, .parameter), (d', .distribution)]) ?_ ?_ (by simp [Obj.optima])
  · simp only [Obj.holds, List.map_append, List.filterMap_append, List.map_cons, List.map_nil,
      List.filterMap_cons, List.filterMap_nil, List.count_cons, List.count_append, List.count_nil]
    omega
  · intro y hy
    simp only [List.mem_cons, List.not_mem_nil, or_false] at hy
    rcases hy with rfl | rfl
    · exact Kinded.keeps ⟨n', q, hn', hk'⟩ (s1.trans s2)
    · exact k2
  · intro y hy
    simp only [Obj.wants, List.map_append, List.filterMap_append, List.map_cons, List.map_nil,
      List.filterMap_cons, List.filterMap_nil, List.mem_cons, List.mem_append, List.append_nil,
      List.not_mem_nil, or_false] at hy ⊢
    grind

theorem runs_defaults : ∀ (l : List (Nat × Option Err)) {h : Heap} {E : List Ref}, Full h E →
    Runs (defaults l) h (fun ds h' => Full h' (ds.map (·.1) ++ E) ∧ Keeps h h' ∧
      ∀ d ∈ ds, Kinded h' d.1 .distribution) (Unchanged h)
  | [], h, E, f => ⟨f, Keeps.refl h, by simp⟩
  | (i, v) :: rest, h, E, f => by
    refine runs_bind (runs_newLeaf f .distribution v) ?_
    rintro d h1 ⟨⟨f1, s1⟩, rfl, rfl⟩
    have u1 : Undo [h.length] (h ++ [.live 1 Leaf.distribution.obj]) h :=
      undo_leaf (o := .distribution) rfl rfl (undo_nil h)
    refine runs_bind (runs_orRelease (runs_defaults rest f1) u1) ?_
    rintro ds h2 ⟨f2, s2, k2⟩
    refine ⟨f2.perm fun x => ?_, s1.trans s2, fun x hx => ?_⟩
    · simp only [List.map_cons, List.cons_append, List.count_append, List.count_cons]; omega
    · rcases List.mem_cons.1 hx with rfl | hx
      · exact Kinded.keeps ⟨1, .distribution, get_append_self h _, rfl⟩ s2
      · exact k2 x hx

theorem count_filter_split (p : Ref × List Nat → Bool) (ds : List (Ref × List Nat)) (x : Ref) :
    ((ds.filter p).map (·.1)).count x + ((ds.filter fun y => !p y).map (·.1)).count x =
      (ds.map (·.1)).count x := by
  induction ds with
  | nil => rfl
  | cons d ds ih =>
    cases hp : p d
    · simp only [List.filter_cons, hp, Bool.not_false, if_true, List.map_cons, List.count_cons]
      simp only [Bool.false_eq_true, if_false]
      omega
    · simp only [List.filter_cons, hp, Bool.not_true, if_true, List.map_cons, List.count_cons]
      simp only [Bool.false_eq_true, if_false]
      omega

theorem runs_setDistribution {h : Heap} {E : List Ref} (f : Full h E) {s d : Ref} {is : List Nat}
    (a : Alive h s) (b : Alive h d) {v : Option Err} {w : Nat → Option Err} (hroom : Room h 1) :
    Runs (setDistribution s d is v w) h (fun _ h' => Full h' E) (Unchanged h) := by
  refine runs_bind (runs_check a (Unchanged.refl h)) ?_
  rintro o _ ⟨rfl, n, hn, hk⟩
  refine runs_bind (runs_check b (Unchanged.refl h)) ?_
  rintro q _ ⟨rfl, n', hn', hk'⟩
  refine runs_bind (runs_verdict (Unchanged.refl _)) ?_
  rintro _ _ ⟨rfl, -⟩
  obtain ⟨g, ps, cl, ds, rfl⟩ := kind_configurationSpace hk
  dsimp only
  refine runs_bind (runs_retain b hroom) ?_
  rintro _ _ rfl
  have f1 := f.bump b
  have s1 := keeps_bump h d
  refine runs_bind (runs_orRelease (runs_defaults _ f1) (undo_bump hn' (f.pos hn') (undo_nil h))) ?_
  rintro add h2 ⟨f2, s2, k2⟩
  obtain ⟨m, hm⟩ := (s1.trans s2) s n _ hn
  refine runs_bind (runs_store hm) ?_
  rintro _ _ rfl
  refine runs_mono (runs_releaseAll (E := E) _ ?_) (fun _ _ q => q.1) (fun _ q => q)
  refine f2.write hm (fun x => ?_) rfl rfl
    (new := (d, .distribution) :: add.map (fun y => (y.1, Kind.distribution))) ?_ ?_
    (by simp [Obj.optima])
  · have := count_filter_split (fun x => x.2.any (is.contains ·)) ds x
    simp only [Obj.holds, List.map_append, List.map_cons, List.count_cons, List.count_append] at this ⊢
    omega
  · intro y hy
    rcases List.mem_cons.1 hy with rfl | hy
    · exact Kinded.keeps ⟨n', q, hn', hk'⟩ (s1.trans s2)
    · obtain ⟨z, hz, rfl⟩ := List.mem_map.1 hy
      exact k2 z hz
  · intro y hy
    simp only [Obj.wants, List.map_append, List.map_cons, List.mem_cons, List.mem_append, List.mem_map,
      List.mem_filter] at hy ⊢
    grind

theorem runs_setCondition {h : Heap} {E : List Ref} (f : Full h E) {s e : Ref} {i : Nat}
    (a : Alive h s) (b : Alive h e) {v : Option Err} (hroom : Room h 1) :
    Runs (setCondition s i e v) h (fun _ h' => Full h' E) (Unchanged h) := by
  refine runs_bind (runs_check a (Unchanged.refl h)) ?_
  rintro o _ ⟨rfl, n, hn, hk⟩
  refine runs_bind (runs_check b (Unchanged.refl h)) ?_
  rintro q _ ⟨rfl, n', hn', hk'⟩
  obtain ⟨g, ps, cl, ds, rfl⟩ := kind_configurationSpace hk
  dsimp only
  cases hi : ps[i]? with
  | none => exact Unchanged.refl h
  | some pc =>
    obtain ⟨p, _ | c⟩ := pc
    · dsimp only
      refine runs_bind (runs_retain b hroom) ?_
      rintro _ _ rfl
      have hne : s ≠ e := by
        intro he; subst he; rw [hn] at hn'; cases hn'; simp [Obj.kind] at hk'
      have hm : get (bump h e) s = .live n (.configurationSpace g ps cl ds) := by
        rw [get_bump_ne hne]; exact hn
      refine runs_bind (runs_store hm) ?_
      rintro _ _ rfl
      have hlt := lt_of_live hm
      cases v with
      | none =>
        have hlen : i < ps.length := by
          rcases Nat.lt_or_ge i ps.length with h1 | h1
          · exact h1
          · rw [List.getElem?_eq_none h1] at hi; exact nomatch hi
        have hpi : ps[i] = (p, none) := by rw [List.getElem?_eq_getElem hlen] at hi; exact Option.some.inj hi
        have hps : ps = ps.take i ++ (p, none) :: ps.drop (i + 1) := by
          rw [← hpi, List.getElem_cons_drop, List.take_append_drop]
        have hset : ps.set i (p, some e) = ps.take i ++ (p, some e) :: ps.drop (i + 1) := by
          rw [List.set_eq_take_append_cons_drop, if_pos hlen]
        refine (f.bump b).write hm (fun x => ?_) rfl rfl (new := [(e, .expression)]) ?_ ?_
          (by simp [Obj.optima])
        · rw [hset]
          conv => lhs; rw [hps]
          simp only [Obj.holds, List.map_append, List.filterMap_append, List.map_cons,
            List.filterMap_cons, List.count_cons, List.count_append]
          omega
        · intro y hy
          simp only [List.mem_singleton] at hy
          subst hy
          exact Kinded.keeps ⟨n', q, hn', hk'⟩ (keeps_bump _ _)
        · rw [hset]
          intro y hy
          conv => lhs; rw [hps]
          simp only [Obj.wants, List.map_append, List.filterMap_append, List.map_cons,
            List.filterMap_cons, List.mem_cons, List.mem_append, List.not_mem_nil, or_false] at hy ⊢
          grind
      | some err =>
        have he : get ((bump h e).set s (.live n (.configurationSpace g (ps.set i (p, some e)) cl ds))) e =
            .live (n' + 1) q := by
          rw [get_set_ne _ (Ne.symm hne), get_bump_self hn']
        have hrel := release_dec he (f.pos hn')
        show Runs (ignore (release e) >>= fun _ => _) _ _ _
        refine runs_bind (P := fun _ h' => h' = ((bump h e).set s
          (.live n (.configurationSpace g (ps.set i (p, some e)) cl ds))).set e (.live n' q)) ?_ ?_
        · unfold Runs ignore
          rw [hrel]
        · rintro _ _ rfl
          have hs' : get (((bump h e).set s (.live n (.configurationSpace g (ps.set i (p, some e)) cl
              ds))).set e (.live n' q)) s =
              .live n (.configurationSpace g (ps.set i (p, some e)) cl ds) := by
            rw [get_set_ne _ hne, get_set_self _ hlt]
          refine runs_bind (runs_store hs') ?_
          rintro _ _ rfl
          have hback : ps.set i (p, none) = ps := by
            apply List.ext_getElem?
            intro j
            by_cases hj : i = j
            · subst hj
              rw [List.getElem?_set_self', hi]; rfl
            · rw [List.getElem?_set_ne hj]
          show Unchanged h _
          rw [hback]
          refine ⟨by simp [length_bump], fun x => ?_⟩
          by_cases hx : x = s
          · subst hx
            rw [get_set_self _ (by simpa using hlt), hn]
          · rw [get_set_ne _ hx]
            by_cases hx' : x = e
            · subst hx'
              rw [get_set_self _ (by simpa [length_bump] using lt_of_live hn'), hn']
            · rw [get_set_ne _ hx', get_set_ne _ hx, get_bump_ne hx']
    · exact Unchanged.refl h

theorem runs_addClause {h : Heap} {E : List Ref} (f : Full h E) {s e : Ref}
    (a : Alive h s) (b : Alive h e) {v w x : Option Err} (hroom : Room h 2) :
    Runs (addClause s e v w x) h (fun _ h' => Full h' E) (Unchanged h) := by
  refine runs_bind (runs_check a (Unchanged.refl h)) ?_
  rintro o _ ⟨rfl, n, hn, hk⟩
  refine runs_bind (runs_check b (Unchanged.refl h)) ?_
  rintro q _ ⟨rfl, n', hn', hk'⟩
  refine runs_bind (runs_verdict (Unchanged.refl _)) ?_
  rintro _ _ ⟨rfl, -⟩
  obtain ⟨g, ps, cl, ds, rfl⟩ := kind_configurationSpace hk
  dsimp only
  refine runs_bind (runs_newConfiguration_none f a hroom) ?_
  rintro c h1 ⟨⟨f1, s1⟩, e1, rfl, r1⟩
  have u1 : Undo [h.length] h1 h := by
    rw [e1]; exact undo_single (o := .configuration s) hn (f.pos hn) rfl rfl (undo_nil h)
  refine runs_bind (runs_orRelease (runs_verdict (Unchanged.refl h1)) u1) ?_
  rintro _ _ ⟨rfl, -⟩
  have b1 := s1.alive b
  refine runs_bind (P := fun _ h' => h' = bump h1 e) (runs_orRelease ?_ u1) ?_
  · refine runs_bind (runs_verdict (Unchanged.refl h1)) ?_
    rintro _ _ ⟨rfl, -⟩
    exact runs_retain b1 r1
  rintro _ _ rfl
  obtain ⟨m, hm⟩ := (s1.trans (keeps_bump h1 e)) s n _ hn
  refine runs_bind (runs_store hm) ?_
  rintro _ _ rfl
  refine runs_mono (runs_ignore_release (E := E) ?_) (fun _ _ q => q.1) (fun _ q => q)
  refine (f1.bump b1).write hm (fun x => ?_) rfl rfl (new := [(e, .expression)]) ?_ ?_
    (by simp [Obj.optima])
  · simp only [Obj.holds, List.count_cons, List.count_append, List.count_nil]; omega
  · intro y hy
    simp only [List.mem_singleton] at hy
    subst hy
    exact Kinded.keeps ⟨n', q, hn', hk'⟩ (s1.trans (keeps_bump _ _))
  · intro y hy
    simp only [Obj.wants, List.map_append, List.map_cons, List.map_nil, List.mem_cons, List.mem_append,
      List.not_mem_nil, or_false] at hy ⊢
    grind

theorem runs_addFeature {h : Heap} {E : List Ref} (f : Full h E) {s p : Ref}
    (a : Alive h s) (b : Alive h p) {v : Option Err} (hroom : Room h 1) :
    Runs (addFeature s p v) h (fun _ h' => Full h' E) (Unchanged h) := by
  refine runs_bind (runs_check a (Unchanged.refl h)) ?_
  rintro o _ ⟨rfl, n, hn, hk⟩
  refine runs_bind (runs_check b (Unchanged.refl h)) ?_
  rintro q _ ⟨rfl, n', hn', hk'⟩
  refine runs_bind (runs_verdict (Unchanged.refl _)) ?_
  rintro _ _ ⟨rfl, -⟩
  obtain ⟨ps, rfl⟩ := kind_featuresSpace hk
  dsimp only
  refine runs_bind (runs_retain b hroom) ?_
  rintro _ _ rfl
  obtain ⟨m, hm⟩ := keeps_bump h p s n _ hn
  refine runs_mono (runs_store hm) ?_ (fun _ q => q)
  rintro _ _ rfl
  refine (f.bump b).write hm (fun x => ?_) rfl rfl (new := [(p, .parameter)]) ?_ ?_
    (by simp [Obj.optima])
  · simp only [Obj.holds, List.count_cons, List.count_append, List.count_nil]; omega
  · intro y hy
    simp only [List.mem_singleton] at hy
    subst hy
    exact Kinded.keeps ⟨n', q, hn', hk'⟩ (keeps_bump _ _)
  · intro y hy
    simpa only [Obj.wants, List.map_append, List.map_cons, List.map_nil, List.mem_append] using hy

theorem runs_addObjectiveParameter {h : Heap} {E : List Ref} (f : Full h E) {s p : Ref}
    (a : Alive h s) (b : Alive h p) {v : Option Err} (hroom : Room h 1) :
    Runs (addObjectiveParameter s p v) h (fun _ h' => Full h' E) (Unchanged h) := by
  refine runs_bind (runs_check a (Unchanged.refl h)) ?_
  rintro o _ ⟨rfl, n, hn, hk⟩
  refine runs_bind (runs_check b (Unchanged.refl h)) ?_
  rintro q _ ⟨rfl, n', hn', hk'⟩
  refine runs_bind (runs_verdict (Unchanged.refl _)) ?_
  rintro _ _ ⟨rfl, -⟩
  obtain ⟨ps, os, rfl⟩ := kind_objectiveSpace hk
  dsimp only
  refine runs_bind (runs_retain b hroom) ?_
  rintro _ _ rfl
  obtain ⟨m, hm⟩ := keeps_bump h p s n _ hn
  refine runs_mono (runs_store hm) ?_ (fun _ q => q)
  rintro _ _ rfl
  refine (f.bump b).write hm (fun x => ?_) rfl rfl (new := [(p, .parameter)]) ?_ ?_
    (by simp [Obj.optima])
  · simp only [Obj.holds, List.count_cons, List.count_append, List.count_nil]; omega
  · intro y hy
    simp only [List.mem_singleton] at hy
    subst hy
    exact Kinded.keeps ⟨n', q, hn', hk'⟩ (keeps_bump _ _)
  · intro y hy
    simp only [Obj.wants, List.map_append, List.map_cons, List.map_nil, List.mem_append] at hy ⊢
    grind

theorem runs_addObjective {h : Heap} {E : List Ref} (f : Full h E) {s e : Ref}
    (a : Alive h s) (b : Alive h e) {v : Option Err} {k : Nat} (hroom : Room h (k + 1)) :
    Runs (addObjective s e v) h (fun _ h' => Full h' E ∧ (∀ x, Alive h x → Alive h' x) ∧ Room h' k)
      (Unchanged h) := by
  refine runs_bind (runs_check a (Unchanged.refl h)) ?_
  rintro o _ ⟨rfl, n, hn, hk⟩
  refine runs_bind (runs_check b (Unchanged.refl h)) ?_
  rintro q _ ⟨rfl, n', hn', hk'⟩
  refine runs_bind (runs_verdict (Unchanged.refl _)) ?_
  rintro _ _ ⟨rfl, -⟩
  obtain ⟨ps, os, rfl⟩ := kind_objectiveSpace hk
  dsimp only
  refine runs_bind (runs_retain b hroom) ?_
  rintro _ _ rfl
  obtain ⟨m, hm⟩ := keeps_bump h e s n _ hn
  have hr := room_bump e hroom
  refine runs_mono (runs_store hm) ?_ (fun _ q => q)
  rintro _ _ rfl
  refine ⟨?_, fun x hx => ?_, hr.1, fun x c o hx => ?_⟩
  · refine (f.bump b).write hm (fun x => ?_) rfl rfl (new := [(e, .expression)]) ?_ ?_
      (by simp [Obj.optima])
    · simp only [Obj.holds, List.count_cons, List.count_append, List.count_nil]; omega
    · intro y hy
      simp only [List.mem_singleton] at hy
      subst hy
      exact Kinded.keeps ⟨n', q, hn', hk'⟩ (keeps_bump _ _)
    · intro y hy
      simp only [Obj.wants, List.map_append, List.map_cons, List.map_nil, List.mem_append] at hy ⊢
      grind
  · obtain ⟨c, o, hc⟩ := (keeps_bump h e).alive hx
    by_cases hxs : x = s
    · subst hxs; exact ⟨_, _, get_set_self _ (lt_of_live hm)⟩
    · exact ⟨c, o, by rw [get_set_ne _ hxs]; exact hc⟩
  · by_cases hxs : x = s
    · subst hxs
      rw [get_set_self _ (lt_of_live hm)] at hx
      cases hx
      exact hr.2 _ _ _ hm
    · rw [get_set_ne _ hxs] at hx
      exact hr.2 _ _ _ hx

theorem runs_addObjectives : ∀ (es : List (Ref × Option Err)) {h : Heap} {E : List Ref}, Full h E →
    ∀ {s : Ref}, Alive h s → (∀ e ∈ es, Alive h e.1) → Room h es.length →
    Runs (addObjectives s es) h (fun _ h' => Full h' E) (fun h' => Full h' E)
  | [], h, E, f, s, a, _, _ => by
    refine runs_bind (runs_check a f) ?_
    rintro o _ ⟨rfl, -⟩
    exact f
  | (e, v) :: es, h, E, f, s, a, b, hroom => by
    refine runs_bind (runs_mono (runs_addObjective f a (b (e, v) (by simp)) hroom) (fun _ _ q => q)
      (fun _ q => q.full f)) ?_
    rintro _ h' ⟨f', al, r'⟩
    exact runs_addObjectives es f' (al _ a) (fun x hx => al _ (b x (by simp [hx]))) r'

end CCS.Own
