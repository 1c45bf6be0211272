import Verif.Lemmas.OwnUpdates

/-! # Ownership: sampling, tuners, maps, trees -/

namespace CCS.Own

open CCS

theorem runs_check_ok {h : Heap} {r : Ref} {k : Kind} {R : Heap → Prop} (a : Kinded h r k) :
    Runs (check r k) h (fun o h' => h = h' ∧ ∃ n, get h r = .live n o ∧ o.kind = k) R := by
  refine runs_bind (runs_load a.alive) ?_
  rintro o _ ⟨rfl, n, hn⟩
  have := a.kind hn
  rw [if_pos this]
  exact ⟨rfl, n, hn, this⟩

/-! ## Sampling -/

theorem runs_sample {h : Heap} {E : List Ref} (f : Full h E) {s : Ref} (a : Alive h s) {d : Draw}
    (hroom : Room h 1) : Runs (sample s d) h (Made E h) (Unchanged h) := by
  obtain ⟨n, o, hn⟩ := a
  refine runs_bind (runs_newConfiguration_none f ⟨n, o, hn⟩ hroom) ?_
  rintro c h1 ⟨⟨f1, s1⟩, e1, rfl, -⟩
  have u1 : Undo [h.length] h1 h := by
    rw [e1]; exact undo_single (o := .configuration s) hn (f.pos hn) rfl rfl (undo_nil h)
  refine runs_bind (P := fun _ h' => h1 = h') (runs_orRelease ?_ u1) ?_
  · cases d with
    | hit => exact rfl
    | miss => exact Unchanged.refl h1
    | error e => exact Unchanged.refl h1
  · rintro _ _ rfl
    exact ⟨f1, s1⟩

theorem runs_newConfiguration_ok {h : Heap} {E : List Ref} (f : Full h E) {s : Ref}
    (a : Kinded h s .configurationSpace) {k : Nat} (hroom : Room h (k + 1)) {R : Heap → Prop} :
    Runs (newConfiguration s none none) h (fun r h' => Made E h r h' ∧ Room h' k) R := by
  refine runs_bind (runs_check_ok a) ?_
  rintro o _ ⟨rfl, n, hn, hk⟩
  refine runs_bind (P := fun _ h' => h = h') rfl ?_
  rintro _ _ rfl
  refine runs_bind (runs_retain a.alive hroom) ?_
  rintro _ _ rfl
  refine runs_bind (P := fun _ h' => bump h s = h') rfl ?_
  rintro _ _ rfl
  refine ⟨?_, room_append _ (room_bump s hroom)⟩
  refine runs_make (R := R) (E := E) (o := .configuration s) (f.bump a.alive) (fun x => ?_)
    (fun x k hx => ?_) (by simp [Obj.optima]) (by simp) (keeps_bump _ s)
  · simp [Obj.holds, List.count_cons]; omega
  · simp only [Obj.wants, List.mem_singleton, Prod.mk.injEq] at hx
    obtain ⟨rfl, rfl⟩ := hx
    exact a.keeps (keeps_bump _ _)

/-- What the functions that return several configurations leave: what they return, and what nobody
owns. -/
def Sampled (E : List Ref) (x : Option Err × List Ref) (h' : Heap) : Prop :=
  ∃ lost, Full h' (lost ++ (x.2 ++ E)) ∧ lost.length ≤ 1 ∧
    (lost ≠ [] → x.1 = some .samplingUnsuccessful)

theorem runs_sampleLoop {s : Ref} {E : List Ref} {R : Heap → Prop} : ∀ (ds : List Draw) (todo : Nat)
    (c : Option Ref) (found : List Ref) {h : Heap}, Full h (c.toList ++ (found ++ E)) →
    Kinded h s .configurationSpace → Room h (todo - c.toList.length) → (c.isSome → 0 < todo) →
    Runs (sampleLoop s ds todo c found) h (Sampled E) R
  | ds, 0, c, found, h, f, _, _, hc => by
    cases c with
    | none =>
      have : sampleLoop s ds 0 none found = pure (none, found) := by cases ds <;> rfl
      rw [this]
      exact ⟨[], f, by simp, by simp⟩
    | some c => exact absurd (hc rfl) (Nat.lt_irrefl 0)
  | [], todo + 1, c, found, h, f, _, _, _ => ⟨c.toList, f, by cases c <;> simp, fun _ => rfl⟩
  | d :: ds, todo + 1, c, found, h, f, a, hroom, _ => by
    have rest : ∀ (c : Ref) (h1 : Heap), Full h1 (c :: (found ++ E)) → Keeps h h1 → Room h1 todo →
        Runs (match d with
          | .hit => sampleLoop s ds todo none (found ++ [c])
          | .miss => sampleLoop s ds (todo + 1) (some c) found
          | .error e => do ignore (release c); pure (some e, found)) h1 (Sampled E) R := by
      intro c h1 f1 s1 r1
      cases d with
      | hit =>
        refine runs_sampleLoop ds todo none (found ++ [c]) (f1.perm fun x => ?_) (a.keeps s1)
          (r1.mono (by simp)) (by simp)
        simp only [Option.toList, List.nil_append, List.count_append, List.count_cons, List.count_nil]
        omega
      | miss => exact runs_sampleLoop ds (todo + 1) (some c) found f1 (a.keeps s1) (r1.mono (by simp)) (by simp)
      | error e =>
        refine runs_bind (runs_ignore_release f1) ?_
        rintro _ h2 ⟨f2, -⟩
        exact ⟨[], f2, by simp, by simp⟩
    cases c with
    | some c => exact rest c h f (Keeps.refl h) (hroom.mono (by simp))
    | none =>
      refine runs_bind (runs_newConfiguration_ok f a (k := todo) (hroom.mono (by simp))) ?_
      rintro c h1 ⟨⟨f1, s1⟩, r1⟩
      exact rest c h1 f1 s1 r1

theorem runs_samples {h : Heap} {E : List Ref} (f : Full h E) {s : Ref} (a : Alive h s) {n : Nat}
    {ds : List Draw} (hroom : Room h n) :
    Runs (samples s n ds) h (Sampled E) (Unchanged h) := by
  refine runs_bind (runs_check a (Unchanged.refl h)) ?_
  rintro o _ ⟨rfl, m, hm, hk⟩
  exact runs_sampleLoop _ n none [] f ⟨m, o, hm, hk⟩ (hroom.mono (by simp)) (by simp)

theorem runs_newTreeConfiguration_ok {h : Heap} {E : List Ref} (f : Full h E) {s : Ref}
    (a : Kinded h s .treeSpace) {k : Nat} (hroom : Room h (k + 1)) {R : Heap → Prop} :
    Runs (newTreeConfiguration s) h (fun r h' => Made E h r h' ∧ Room h' k) R := by
  refine runs_bind (runs_check_ok a) ?_
  rintro o _ ⟨rfl, n, hn, hk⟩
  refine runs_bind (runs_retain a.alive hroom) ?_
  rintro _ _ rfl
  refine ⟨?_, room_append _ (room_bump s hroom)⟩
  refine runs_make (R := R) (E := E) (o := .treeConfiguration s) (f.bump a.alive) (fun x => ?_)
    (fun x k hx => ?_) (by simp [Obj.optima]) (by simp) (keeps_bump _ s)
  · simp [Obj.holds, List.count_cons]; omega
  · simp only [Obj.wants, List.mem_singleton, Prod.mk.injEq] at hx
    obtain ⟨rfl, rfl⟩ := hx
    exact a.keeps (keeps_bump _ _)

theorem runs_treeSamples_ok {s : Ref} {E : List Ref} {R : Heap → Prop} :
    ∀ (ds : List (Option Err)) (found : List Ref) {h : Heap}, Full h (found ++ E) →
    Kinded h s .treeSpace → Room h ds.length →
    Runs (treeSamples s ds found) h (fun x h' => Full h' (x.2 ++ E)) R
  | [], found, h, f, a, _ => by
    refine runs_bind (runs_check_ok a) ?_
    rintro o _ ⟨rfl, -⟩
    exact f
  | none :: ds, found, h, f, a, hroom => by
    refine runs_bind (runs_newTreeConfiguration_ok f a hroom) ?_
    rintro c h1 ⟨⟨f1, s1⟩, r1⟩
    refine runs_treeSamples_ok ds (found ++ [c]) (f1.perm fun x => ?_) (a.keeps s1) r1
    simp only [List.count_append, List.count_cons, List.count_nil]
    omega
  | some e :: ds, found, h, f, a, _ => by
    refine runs_bind (runs_check_ok a) ?_
    rintro o _ ⟨rfl, -⟩
    exact f

theorem runs_treeSamples {s : Ref} {E : List Ref} {h : Heap} (f : Full h E) (a : Alive h s)
    (ds : List (Option Err)) (hroom : Room h ds.length) :
    Runs (treeSamples s ds []) h (fun x h' => Full h' (x.2 ++ E)) (Unchanged h) := by
  obtain ⟨n, o, hn⟩ := a
  by_cases hk : o.kind = .treeSpace
  · exact runs_treeSamples_ok ds [] f ⟨n, o, hn, hk⟩ hroom
  · have hc : check s .treeSpace h = .err .invalidObject h := by
      show Act.bind (load s) _ h = _
      unfold Act.bind load
      rw [hn]
      dsimp only
      rw [if_neg hk]
      rfl
    have hb : ∀ {β : Type} (k : Obj → Act β), (check s .treeSpace >>= k) h = .err .invalidObject h := by
      intro β k
      show Act.bind (check s .treeSpace) k h = _
      unfold Act.bind
      rw [hc]
    have hu : treeSamples s ds [] h = .err .invalidObject h := by
      cases ds with
      | nil => exact hb _
      | cons d ds =>
        cases d with
        | some e => exact hb _
        | none =>
          show Act.bind (newTreeConfiguration s) _ h = _
          unfold Act.bind
          rw [show newTreeConfiguration s h = .err .invalidObject h from hb _]
    unfold Runs
    rw [hu]
    exact Unchanged.refl h

/-! ## Tuners -/

theorem runs_newOptima {h : Heap} {cmp : Ref → Ref → Verdict4} {e : Ref} {R : Heap → Prop} :
    ∀ (l : List Ref) (b : Bool), (∀ x ∈ l, Alive h x) →
    Runs (newOptima cmp e l b) h (fun l' h' => h = h' ∧ ∀ x ∈ l', x = e ∨ x ∈ l) R
  | [], b, _ => by
    refine ⟨rfl, ?_⟩
    cases b <;> simp
  | x :: xs, true, a => by
    refine runs_bind (runs_newOptima xs true fun y hy => a y (by simp [hy])) ?_
    rintro l _ ⟨rfl, hl⟩
    refine ⟨rfl, fun y hy => ?_⟩
    rcases List.mem_cons.1 hy with rfl | hy
    · simp
    · rcases hl y hy with h1 | h1
      · exact .inl h1
      · exact .inr (by simp [h1])
  | x :: xs, false, a => by
    refine runs_bind (runs_load (a x (by simp))) ?_
    rintro o _ ⟨rfl, -⟩
    have wk : ∀ (l' : List Ref) (h' : Heap), (h = h' ∧ ∀ y ∈ l', y = e ∨ y ∈ xs) →
        (h = h' ∧ ∀ y ∈ l', y = e ∨ y ∈ x :: xs) := fun l' h' q =>
      ⟨q.1, fun y hy => (q.2 y hy).imp id (List.mem_cons_of_mem _)⟩
    have a' : ∀ y ∈ xs, Alive h y := fun y hy => a y (by simp [hy])
    have cons : ∀ b, Runs (do let l ← newOptima cmp e xs b; pure (x :: l)) h
        (fun l' h' => h = h' ∧ ∀ y ∈ l', y = e ∨ y ∈ x :: xs) R := by
      intro b
      refine runs_bind (runs_newOptima xs b a') ?_
      rintro l _ ⟨rfl, hl⟩
      refine ⟨rfl, fun y hy => ?_⟩
      rcases List.mem_cons.1 hy with rfl | hy
      · exact .inr (by simp)
      · exact (hl y hy).imp id (List.mem_cons_of_mem _)
    cases cmp e x with
    | better => exact runs_mono (runs_newOptima xs false a') wk (fun _ q => q)
    | worse => exact cons true
    | incomparable => exact cons false
    | error => exact runs_mono (runs_newOptima xs true a') wk (fun _ q => q)

theorem history_sub_holds {o : Obj} {x : Ref} (h : x ∈ o.history) : x ∈ o.holds := by
  cases o <;> simp [Obj.history, Obj.holds] at h ⊢ <;> simp [h]

theorem Full.alive_optimum {h : Heap} {E : List Ref} (f : Full h E) {t : Ref} {n : Nat} {o : Obj}
    (ht : get h t = .live n o) {x : Ref} (hx : x ∈ o.optima) : Alive h x :=
  f.alive_field ht (history_sub_holds (f.borrowed t n o ht x hx))

theorem record_facts {o : Obj} {k : Kind} (hk : o.takes = some k) (e : Ref) (opt : List Ref) :
    (∀ x, (o.record e opt).holds.count x = o.holds.count x + [e].count x) ∧
    (o.record e opt).kind = o.kind ∧ (o.record e opt).nested = false ∧
    (∀ y ∈ (o.record e opt).wants, y ∈ o.wants ∨ y ∈ [(e, k)]) ∧
    (o.record e opt).optima = opt ∧ (o.record e opt).history = o.history ++ [e] := by
  cases o <;> simp [Obj.takes] at hk <;> subst hk <;>
    simp [Obj.record, Obj.holds, Obj.kind, Obj.nested, Obj.wants, Obj.optima, Obj.history, List.count_cons] <;>
    grind

theorem runs_tell {cmp : Ref → Ref → Verdict4} {t : Ref} : ∀ (es : List (Ref × Bool)) {h : Heap}
    {E : List Ref}, Full h E → Alive h t → (∀ e ∈ es, Alive h e.1) → Room h es.length →
    Runs (tell cmp t es) h (fun _ h' => Full h' E) (fun h' => Full h' E)
  | [], h, E, f, a, _, _ => by
    refine runs_bind (runs_load a) ?_
    rintro o _ ⟨rfl, -⟩
    exact f
  | (e, good) :: es, h, E, f, a, b, hroom => by
    refine runs_bind (runs_load a) ?_
    rintro o _ ⟨rfl, n, hn⟩
    cases hk : o.takes with
    | none => exact f
    | some k =>
      dsimp only
      have be := b (e, good) (by simp)
      refine runs_bind (runs_check be f) ?_
      rintro q _ ⟨rfl, m, hm, hq⟩
      cases good with
      | false =>
        exact runs_tell es f a (fun x hx => b x (by simp [hx])) (hroom.mono (by simp))
      | true =>
        show Runs (ignore (retain e) >>= _) h _ _
        refine runs_bind (P := fun _ h' => h' = bump h e) ?_ ?_
        · have := runs_retain (R := fun _ => False) be hroom
          unfold Runs at this ⊢
          unfold ignore
          cases hc : retain e h with
          | ok x h' => rw [hc] at this; exact this
          | err x h' => rw [hc] at this; exact this.elim
          | ub => rw [hc] at this; exact this
        rintro _ _ rfl
        have f1 := f.bump be
        obtain ⟨n1, hn1⟩ := keeps_bump h e t n o hn
        refine runs_bind (runs_newOptima o.optima false fun x hx => f1.alive_optimum hn1 hx) ?_
        rintro opt _ ⟨rfl, hopt⟩
        obtain ⟨hh, hkd, hnt, hw, ho, hhist⟩ := record_facts hk e opt
        refine runs_bind (runs_store hn1) ?_
        rintro _ _ rfl
        have r1 := room_bump e hroom
        have hlt := lt_of_live hn1
        have al : ∀ x, Alive h x → Alive ((bump h e).set t (.live n1 (o.record e opt))) x := by
          intro x hx
          obtain ⟨c, p, hc⟩ := (keeps_bump h e).alive hx
          by_cases hxt : x = t
          · subst hxt; exact ⟨_, _, get_set_self _ hlt⟩
          · exact ⟨c, p, by rw [get_set_ne _ hxt]; exact hc⟩
        refine runs_tell es (E := E) ?_ (al t a) (fun x hx => al _ (b x (by simp [hx]))) ⟨r1.1, ?_⟩
        · refine f1.write hn1 (fun x => ?_) hkd hnt (new := [(e, k)]) ?_ hw ?_
          · rw [hh]; simp only [List.count_cons, List.count_nil]; omega
          · intro y hy
            simp only [List.mem_singleton] at hy
            subst hy
            exact Kinded.keeps ⟨m, q, hm, hq⟩ (keeps_bump _ _)
          · rw [ho, hhist]
            intro x hx
            rcases hopt x hx with rfl | hx
            · simp
            · exact List.mem_append_left _ (f1.borrowed t n1 o hn1 x hx)
        · intro x c p hx
          by_cases hxt : x = t
          · subst hxt
            rw [get_set_self _ hlt] at hx
            cases hx
            exact r1.2 _ _ _ hn1
          · rw [get_set_ne _ hxt] at hx
            exact r1.2 _ _ _ hx

theorem runs_ask {h : Heap} {E : List Ref} (f : Full h E) {t : Ref} (a : Alive h t) {n : Nat}
    {ds : List Draw} (hroom : Room h n) :
    Runs (ask t n ds) h (Sampled E) (Unchanged h) := by
  refine runs_bind (runs_load a) ?_
  rintro o _ ⟨rfl, m, hm⟩
  have conf : ∀ s, (s, Kind.configurationSpace) ∈ o.wants → Runs (samples s n ds) h (Sampled E) (Unchanged h) :=
    fun s hs => runs_samples f (f.kinded hm hs).alive hroom
  have tree : ∀ s, (s, Kind.treeSpace) ∈ o.wants → ∀ l : List (Option Err), l.length ≤ n →
      Runs (treeSamples s l []) h (Sampled E) (Unchanged h) := by
    intro s hs l hl
    exact runs_mono (runs_treeSamples f (f.kinded hm hs).alive l (hroom.mono hl))
      (fun x _ q => ⟨[], q, by simp, by simp⟩) (fun _ q => q)
  cases o with
  | tuner cs os hist opt => exact conf cs (by simp [Obj.wants])
  | featuresTuner cs os fs hist opt => exact conf cs (by simp [Obj.wants])
  | treeTuner ts os hist opt =>
    exact tree ts (by simp [Obj.wants]) _ (by rw [List.length_map, List.length_take]; omega)
  | _ => exact Unchanged.refl h

theorem runs_suggest {h : Heap} {E : List Ref} (f : Full h E) {t : Ref} (a : Alive h t)
    {pick : Option Nat} {ds : List Draw} (hroom : Room h 1) :
    Runs (suggest t pick ds) h (Sampled E) (Unchanged h) := by
  refine runs_bind (runs_load a) ?_
  rintro o _ ⟨rfl, m, hm⟩
  cases hp : pick.bind (o.optima[·]?) with
  | none => exact runs_ask f a hroom
  | some e =>
    dsimp only
    have he : e ∈ o.optima := by
      cases pick with
      | none => exact nomatch hp
      | some i => exact List.mem_of_getElem? hp
    refine runs_bind (runs_load (f.alive_optimum hm he)) ?_
    rintro ev _ ⟨rfl, n, hn⟩
    cases hev : ev.evaluated with
    | none => exact Unchanged.refl h
    | some c =>
      dsimp only
      have hc : c ∈ ev.holds := by
        cases ev <;> simp [Obj.evaluated] at hev <;> simp [Obj.holds, hev]
      have ac := f.alive_field hn hc
      refine runs_bind (runs_retain ac hroom) ?_
      rintro _ _ rfl
      exact ⟨[], f.bump ac, by simp, by simp⟩

/-! ## Maps -/

theorem runs_retainDat {h : Heap} {E : List Ref} (f : Full h E) (d : Dat)
    (a : ∀ r ∈ d.refs, Alive h r) {k : Nat} (hroom : Room h (k + 1)) {R : Heap → Prop} :
    Runs (retainDat d) h (fun _ h' => Full h' (d.refs ++ E) ∧ Keeps h h' ∧ Room h' k ∧
      Undo d.refs h' h) R := by
  cases d with
  | other n => exact ⟨f, Keeps.refl h, hroom.mono (by omega), undo_nil h⟩
  | obj r =>
    have ar := a r (by simp [Dat.refs])
    refine runs_mono (runs_retain ar hroom) ?_ (fun _ q => q)
    rintro _ _ rfl
    exact ⟨f.bump ar, keeps_bump h r, room_bump r hroom, undo_bump1 f ar⟩

theorem runs_releaseDat {h : Heap} {E : List Ref} (d : Dat) (f : Full h (d.refs ++ E))
    {R : Heap → Prop} :
    Runs (releaseDat d) h (fun _ h' => Full h' E ∧ Fading h h') R := by
  cases d with
  | other n => exact ⟨f, Fading.refl h⟩
  | obj r => exact runs_ignore_release f

theorem holds_map_erase (es : List (Dat × Dat)) {old : Dat × Dat} (hold : old ∈ es) (x : Ref) :
    (Obj.map es).holds.count x =
      old.1.refs.count x + old.2.refs.count x + (Obj.map (es.erase old)).holds.count x := by
  simp only [Obj.holds]
  induction es with
  | nil => simp at hold
  | cons e es ih =>
    by_cases he : e = old
    · subst he
      rw [List.erase_cons_head, List.flatMap_cons, List.count_append, List.count_append]
    · have : (e == old) = false := by simpa using he
      rw [List.erase_cons_tail (by simp [this]), List.flatMap_cons, List.flatMap_cons,
        List.count_append, List.count_append (l₁ := e.1.refs ++ e.2.refs),
        ih (by rcases List.mem_cons.1 hold with h1 | h1
               · exact absurd h1.symm he
               · exact h1)]
      omega

theorem holds_map_snoc (es : List (Dat × Dat)) (k v : Dat) (x : Ref) :
    (Obj.map (es ++ [(k, v)])).holds.count x =
      (Obj.map es).holds.count x + k.refs.count x + v.refs.count x := by
  simp only [Obj.holds, List.flatMap_append, List.flatMap_cons, List.flatMap_nil, List.append_nil,
    List.count_append]
  omega

theorem map_fading {h h' : Heap} (hf : Fading h h') {m : Ref} {n k : Nat} {es : List (Dat × Dat)}
    {o : Obj} (h1 : get h m = .live n (.map es)) (h2 : get h' m = .live k o) : o = .map es := by
  have := hf.2 m
  rw [h1, h2] at this
  rcases this.2 with h3 | ⟨cs, p, h3, -⟩
  · exact h3
  · exact nomatch h3

/-- An entry is removed from a map the caller owns. -/
theorem runs_mapRemove {h : Heap} {E : List Ref} (f : Full h E) {m : Ref} (hE : m ∈ E) {n : Nat}
    {es : List (Dat × Dat)} (hm : get h m = .live n (.map es)) {old : Dat × Dat} (hold : old ∈ es)
    {R : Heap → Prop} :
    Runs (do store m (.map (es.erase old)); releaseDat old.1; releaseDat old.2) h
      (fun _ h' => Full h' E ∧ ∃ k, get h' m = .live k (.map (es.erase old))) R := by
  refine runs_bind (runs_store hm) ?_
  rintro _ _ rfl
  have hlt := lt_of_live hm
  have f1 : Full (h.set m (.live n (.map (es.erase old)))) (old.1.refs ++ (old.2.refs ++ E)) := by
    refine f.write hm (fun x => ?_) rfl rfl (new := []) (by simp)
      (by simp [Obj.wants]) (by simp [Obj.optima])
    rw [holds_map_erase es hold]
    simp only [List.count_append]
    omega
  refine runs_bind (runs_releaseDat old.1 f1) ?_
  rintro _ h2 ⟨f2, e2⟩
  refine runs_mono (runs_releaseDat old.2 f2) ?_ (fun _ q => q)
  rintro _ h3 ⟨f3, e3⟩
  refine ⟨f3, ?_⟩
  obtain ⟨k, o, hk⟩ := f3.alive hE
  have := map_fading (e2.trans e3) (get_set_self _ hlt) hk
  exact ⟨k, by rw [hk, this]⟩

theorem runs_mapDel {h : Heap} {E : List Ref} (f : Full h E) {m : Ref} (hE : m ∈ E) {k : Dat} :
    Runs (mapDel m k) h (fun _ h' => Full h' E) (Unchanged h) := by
  refine runs_bind (runs_check (f.alive hE) (Unchanged.refl h)) ?_
  rintro o _ ⟨rfl, n, hn, hk⟩
  obtain ⟨es, rfl⟩ := kind_map hk
  dsimp only
  cases hf : es.find? (·.1 = k) with
  | none => exact Unchanged.refl h
  | some old =>
    exact runs_mono (runs_mapRemove f hE hn (List.mem_of_find?_eq_some hf)) (fun _ _ q => q.1)
      (fun _ q => q)

theorem runs_mapSet {h : Heap} {E : List Ref} (f : Full h E) {m : Ref} (hE : m ∈ E) {k v : Dat}
    (ak : ∀ r ∈ k.refs, Alive h r) (av : ∀ r ∈ v.refs, Alive h r) (hroom : Room h 2) :
    Runs (mapSet m k v) h (fun _ h' => Full h' E) (Unchanged h) := by
  refine runs_bind (runs_check (f.alive hE) (Unchanged.refl h)) ?_
  rintro o _ ⟨rfl, n, hn, hk⟩
  obtain ⟨es, rfl⟩ := kind_map hk
  dsimp only
  have retains : ∀ (rest : Act Unit), (∀ h' n', Full h' (v.refs ++ (k.refs ++ E)) →
      get h' m = .live n' (.map es) → Runs rest h' (fun _ h' => Full h' E) (Unchanged h)) →
      Runs (do retainDat k; orRelease (retainDat v) k.refs; rest) h (fun _ h' => Full h' E)
        (Unchanged h) := by
    intro rest hrest
    refine runs_bind (runs_retainDat f k ak hroom) ?_
    rintro _ h1 ⟨f1, s1, r1, u1⟩
    refine runs_bind (runs_orRelease (runs_retainDat f1 v (fun r hr => s1.alive (av r hr)) r1) u1) ?_
    rintro _ h2 ⟨f2, s2, -, -⟩
    obtain ⟨n', hn'⟩ := (s1.trans s2) m n _ hn
    exact hrest h2 n' f2 hn'
  cases hf : es.find? (·.1 = k) with
  | none =>
    refine retains _ fun h' n' f' hm' => ?_
    refine runs_mono (runs_store hm') ?_ (fun _ q => q)
    rintro _ _ rfl
    refine f'.write hm' (fun x => ?_) rfl rfl (new := []) (by simp)
      (by simp [Obj.wants]) (by simp [Obj.optima])
    rw [holds_map_snoc]
    simp only [List.count_append]
    omega
  | some old =>
    dsimp only
    by_cases hv : old.2 = v
    · rw [if_pos hv]; exact f
    · rw [if_neg hv]
      refine retains _ fun h' n' f' hm' => ?_
      have := runs_mapRemove (R := Unchanged h) f'
        (by simp [hE] : m ∈ v.refs ++ (k.refs ++ E)) hm' (List.mem_of_find?_eq_some hf)
      have assoc : (do store m (.map (es.erase old)); releaseDat old.1; releaseDat old.2
                       store m (.map (es.erase old ++ [(k, v)])) : Act Unit) h' =
          ((do store m (.map (es.erase old)); releaseDat old.1; releaseDat old.2 : Act Unit) >>=
            fun _ => store m (.map (es.erase old ++ [(k, v)]))) h' := by
        simp only [bind, Act.bind]
        cases store m (.map (es.erase old)) h' with
        | ok x h1 =>
          dsimp only
          cases releaseDat old.1 h1 <;> rfl
        | err e h1 => rfl
        | ub => rfl
      unfold Runs
      rw [assoc]
      show Runs _ h' _ _
      refine runs_bind this ?_
      rintro _ h2 ⟨f2, n2, hm2⟩
      refine runs_mono (runs_store hm2) ?_ (fun _ q => q)
      rintro _ _ rfl
      refine f2.write hm2 (fun x => ?_) rfl rfl (new := []) (by simp)
        (by simp [Obj.wants]) (by simp [Obj.optima])
      rw [holds_map_snoc]
      simp only [List.count_append]
      omega

/-! ## Trees -/

/-- A tree without parent becomes the child of another. -/
theorem Full.link {h : Heap} {E : List Ref} {t c : Ref} (f : Full h (c :: E)) {n m i : Nat}
    {cs ccs : List (Option Ref)} {p : Option Ref} (ht : get h t = .live n (.tree cs p))
    (hc : get h c = .live m (.tree ccs none)) (hi : cs[i]? = some none) (hnb : ¬ Below h c t) :
    Full ((h.set c (.live m (.tree ccs (some t)))).set t (.live n (.tree (cs.set i (some c)) p))) E := by
  have hne : c ≠ t := fun e => hnb (e ▸ .refl)
  have hclt := lt_of_live hc
  have htlt := lt_of_live ht
  have hlen : i < cs.length := by
    rcases Nat.lt_or_ge i cs.length with h1 | h1
    · exact h1
    · rw [List.getElem?_eq_none h1] at hi; exact nomatch hi
  have hci : cs[i] = none := by rw [List.getElem?_eq_getElem hlen] at hi; exact Option.some.inj hi
  have hcs : cs = cs.take i ++ none :: cs.drop (i + 1) := by
    rw [← hci, List.getElem_cons_drop, List.take_append_drop]
  have hset : cs.set i (some c) = cs.take i ++ some c :: cs.drop (i + 1) := by
    rw [List.set_eq_take_append_cons_drop, if_pos hlen]
  have hmem : ∀ x, some x ∈ cs.set i (some c) ↔ x = c ∨ some x ∈ cs := by
    intro x
    rw [hset]
    conv => rhs; rw [hcs]
    simp only [List.mem_append, List.mem_cons, Option.some.injEq, reduceCtorEq, false_or]
    grind
  have hcount : ∀ x, ((cs.set i (some c)).filterMap id).count x = (cs.filterMap id).count x + [c].count x := by
    intro x
    rw [hset]
    conv => rhs; rw [hcs]
    simp only [List.filterMap_append, List.filterMap_cons, id, List.count_append, List.count_cons,
      List.count_nil]
    omega
  generalize hg : (h.set c (.live m (.tree ccs (some t)))).set t (.live n (.tree (cs.set i (some c)) p)) = h'
  have gt : get h' t = .live n (.tree (cs.set i (some c)) p) := by
    rw [← hg]; exact get_set_self _ (by simpa using htlt)
  have gc : get h' c = .live m (.tree ccs (some t)) := by
    rw [← hg, get_set_ne _ hne]; exact get_set_self _ hclt
  have go : ∀ x, x ≠ t → x ≠ c → get h' x = get h x := by
    intro x h1 h2
    rw [← hg, get_set_ne _ h1, get_set_ne _ h2]
  -- nobody had it for child
  have orphan : ∀ x k ds q, get h x = .live k (.tree ds q) → some c ∉ ds := by
    intro x k ds q hx hin
    exact nomatch f.linked.down x k ds q c m ccs none hx hin hc
  have hkind : ∀ x k o, get h' x = .live k o → ∃ o', get h x = .live k o' ∧ o'.kind = o.kind := by
    intro x k o hx
    by_cases h1 : x = t
    · subst h1; rw [gt] at hx; cases hx; exact ⟨_, ht, rfl⟩
    · by_cases h2 : x = c
      · subst h2; rw [gc] at hx; cases hx; exact ⟨_, hc, rfl⟩
      · rw [go x h1 h2] at hx; exact ⟨o, hx, rfl⟩
  have hst : ∀ x, stored h' x = stored h x + [c].count x := by
    intro x
    have h1 := stored_set (.live m (.tree ccs (some t))) x hclt
    have h2 := stored_set (h := h.set c (.live m (.tree ccs (some t))))
      (.live n (.tree (cs.set i (some c)) p)) x (by simpa using htlt)
    rw [hc] at h1
    rw [get_set_ne _ (Ne.symm hne), ht, hg] at h2
    have h3 := hcount x
    simp only [Cell.refs, Obj.holds] at h1 h2
    omega
  refine ⟨fun x => ?_, ?_, ?_, ⟨?_, ?_⟩, ?_⟩
  · have h1 := f.counted x
    rw [hst]
    by_cases e1 : x = t
    · subst e1
      rw [gt]; rw [ht] at h1
      simp only [List.count_cons, List.count_nil] at h1 ⊢
      omega
    · by_cases e2 : x = c
      · subst e2
        rw [gc]; rw [hc] at h1
        simp only [List.count_cons, List.count_nil] at h1 ⊢
        omega
      · rw [go x e1 e2]
        cases hx : get h x <;> rw [hx] at h1 <;> simp only [List.count_cons, List.count_nil] at h1 ⊢ <;>
          omega
  · intro r k o hr x kd hx k' o' hx'
    obtain ⟨o'', hx'', hkk⟩ := hkind x k' o' hx'
    rw [← hkk]
    by_cases e1 : r = t
    · subst e1
      rw [gt] at hr; cases hr
      obtain ⟨y, hy, he⟩ := List.mem_map.1 hx
      cases he
      replace hy : some x ∈ cs.set i (some c) := by
        obtain ⟨z, hz, hzy⟩ := List.mem_filterMap.1 hy
        rw [id] at hzy; rw [← hzy]; exact hz
      rcases (hmem x).1 hy with rfl | hy
      · rw [hc] at hx''; cases hx''; rfl
      · refine f.typed r n _ ht x .tree ?_ k' o'' hx''
        exact List.mem_map.2 ⟨x, List.mem_filterMap.2 ⟨_, hy, rfl⟩, rfl⟩
    · by_cases e2 : r = c
      · subst e2
        rw [gc] at hr; cases hr
        exact f.typed r m _ hc x kd hx k' o'' hx''
      · rw [go r e1 e2] at hr
        exact f.typed r k o hr x kd hx k' o'' hx''
  · intro r k o hr
    by_cases e1 : r = t
    · subst e1; rw [gt] at hr; cases hr; simp [Obj.optima]
    · by_cases e2 : r = c
      · subst e2; rw [gc] at hr; cases hr; simp [Obj.optima]
      · rw [go r e1 e2] at hr; exact f.borrowed r k o hr
  · intro x k ds q hx
    -- the children of a tree are still there
    have still : ∀ y k' ds' q', get h y = .live k' (.tree ds' q') → ∀ z, some z ∈ ds' →
        ∃ k'' ds'' q'', get h' y = .live k'' (.tree ds'' q'') ∧ some z ∈ ds'' := by
      intro y k' ds' q' hy z hz
      by_cases e1 : y = t
      · subst e1
        rw [ht] at hy; cases hy
        exact ⟨n, _, p, gt, (hmem z).2 (.inr hz)⟩
      · by_cases e2 : y = c
        · subst e2
          rw [hc] at hy; cases hy
          exact ⟨m, _, _, gc, hz⟩
        · exact ⟨k', ds', q', by rw [go y e1 e2]; exact hy, hz⟩
    by_cases e2 : x = c
    · subst e2
      rw [gc] at hx; cases hx
      exact ⟨n, _, p, gt, (hmem x).2 (.inl rfl)⟩
    · have : ∃ ds0, get h x = .live k (.tree ds0 (some q)) := by
        by_cases e1 : x = t
        · subst e1; rw [gt] at hx; cases hx; exact ⟨cs, ht⟩
        · rw [go x e1 e2] at hx; exact ⟨ds, hx⟩
      obtain ⟨ds0, hx0⟩ := this
      obtain ⟨k', ds', q', hy, hz⟩ := f.linked.up x k ds0 q hx0
      exact still q k' ds' q' hy x hz
  · intro x k ds q y k' ds' q' hx hin hy
    by_cases e2 : y = c
    · subst e2
      rw [gc] at hy; cases hy
      by_cases e1 : x = t
      · rw [e1]
      · exfalso
        by_cases e3 : x = y
        · subst e3
          rw [gc] at hx; cases hx
          exact orphan x m ccs none hc hin
        · rw [go x e1 e3] at hx
          exact orphan x k ds q hx hin
    · have hy0 : ∃ ds0, get h y = .live k' (.tree ds0 q') := by
        by_cases e1 : y = t
        · subst e1; rw [gt] at hy; cases hy; exact ⟨cs, ht⟩
        · rw [go y e1 e2] at hy; exact ⟨ds', hy⟩
      obtain ⟨ds0, hy0⟩ := hy0
      by_cases e1 : x = t
      · subst e1
        rw [gt] at hx; cases hx
        rcases (hmem y).1 hin with h1 | h1
        · exact absurd h1 e2
        · exact f.linked.down x n cs p y k' ds0 q' ht h1 hy0
      · by_cases e3 : x = c
        · subst e3
          rw [gc] at hx; cases hx
          exact f.linked.down x m ccs none y k' ds0 q' hc hin hy0
        · rw [go x e1 e3] at hx
          exact f.linked.down x k ds q y k' ds0 q' hx hin hy0
  · obtain ⟨rank, hb⟩ := f.ranked
    classical
    refine ⟨fun x => if Below h c x then rank x else rank x + (rank c + 1), fun x k o hx hn y hy => ?_⟩
    have key : ∀ y, rank y < rank x → (Below h c x → Below h c y) →
        (if Below h c y then rank y else rank y + (rank c + 1)) <
          if Below h c x then rank x else rank x + (rank c + 1) := by
      intro y h1 h2
      by_cases e1 : Below h c x
      · rw [if_pos e1, if_pos (h2 e1)]; exact h1
      · rw [if_neg e1]
        by_cases e2 : Below h c y
        · rw [if_pos e2]; omega
        · rw [if_neg e2]; omega
    by_cases e1 : x = t
    · subst e1
      rw [gt] at hx; cases hx
      have hy' : some y ∈ cs.set i (some c) := by
        obtain ⟨z, hz, hzy⟩ := List.mem_filterMap.1 hy
        rw [id] at hzy; rw [← hzy]; exact hz
      rcases (hmem y).1 hy' with rfl | hy'
      · show ite _ _ _ < ite _ _ _; rw [if_pos Below.refl, if_neg hnb]; omega
      · exact key y (hb x n _ ht rfl y (List.mem_filterMap.2 ⟨_, hy', rfl⟩)) fun b => absurd b hnb
    · by_cases e2 : x = c
      · subst e2
        rw [gc] at hx; cases hx
        have hy' : some y ∈ ccs := by
          obtain ⟨z, hz, hzy⟩ := List.mem_filterMap.1 hy
          rw [id] at hzy; rw [← hzy]; exact hz
        exact key y (hb x m _ hc rfl y hy) fun b => b.child hc hy'
      · rw [go x e1 e2] at hx
        refine key y (hb x k o hx hn y hy) fun b => ?_
        have htree : ∃ ds q, o = .tree ds q := by
          cases b with
          | refl => exact absurd rfl e2
          | child b' hz hin =>
            rename_i z n' cs' p'
            have hz' := f.alive_field (x := x) hz (List.mem_filterMap.2 ⟨_, hin, rfl⟩)
            have := f.typed z n' _ hz x .tree (List.mem_map.2 ⟨x, List.mem_filterMap.2 ⟨_, hin, rfl⟩, rfl⟩) k o hx
            exact kind_tree this
        obtain ⟨ds, q, rfl⟩ := htree
        obtain ⟨z, hz, hzy⟩ := List.mem_filterMap.1 hy
        rw [id] at hzy
        exact b.child hx (hzy ▸ hz)

theorem below_bump {h : Heap} {r c t : Ref} (b : Below (bump h r) c t) : Below h c t := by
  induction b with
  | refl => exact .refl
  | child _ hx hy ih =>
    obtain ⟨n, hn, -⟩ := bump_back hx
    exact ih.child hn hy

theorem runs_setChild {h : Heap} {E : List Ref} (f : Full h E) {t c : Ref} {i : Nat} (a : Alive h t)
    (b : Alive h c) (hnb : ¬ Below h c t) (hroom : Room h 1) :
    Runs (setChild t i c) h (fun _ h' => Full h' E) (Unchanged h) := by
  have hne : c ≠ t := fun e => hnb (e ▸ .refl)
  refine runs_bind (runs_check a (Unchanged.refl h)) ?_
  rintro o _ ⟨rfl, n, hn, hk⟩
  refine runs_bind (runs_check b (Unchanged.refl h)) ?_
  rintro q _ ⟨rfl, m, hm, hk'⟩
  obtain ⟨cs, p, rfl⟩ := kind_tree hk
  obtain ⟨ccs, cp, rfl⟩ := kind_tree hk'
  dsimp only
  cases hi : cs[i]? with
  | none => exact Unchanged.refl h
  | some x =>
    cases x with
    | some x => exact Unchanged.refl h
    | none =>
      dsimp only
      cases cp with
      | some x => exact Unchanged.refl h
      | none =>
        rw [if_neg (by simp)]
        refine runs_bind (runs_retain b hroom) ?_
        rintro _ _ rfl
        have hm1 := get_bump_self hm
        have hn1 : get (bump h c) t = .live n (.tree cs p) := by
          rw [get_bump_ne (Ne.symm hne)]; exact hn
        refine runs_bind (runs_store hm1) ?_
        rintro _ _ rfl
        refine runs_mono (runs_store (n := n) (o := .tree cs p) ?_) ?_ (fun _ q => q)
        · rw [get_set_ne _ (Ne.symm hne)]; exact hn1
        · rintro _ _ rfl
          exact (f.bump b).link hn1 hm1 hi fun q => hnb (below_bump q)

/-- The user's child is attached, or lost. -/
theorem runs_dynamicChild {h : Heap} {E : List Ref} (f : Full h E) {t : Ref} {i : Nat} {cb : Callback}
    (a : Alive h t) (hcb : ∀ r, cb = .gives r → r ∈ E ∧ ¬ Below h r t) (hroom : Room h 1) :
    let E' := without E ((Op.dynamicChild t i cb).gives h)
    Runs (dynamicChild t i cb) h (fun _ h' => Full h' E') (fun h' => ∃ lost, Full h' (lost ++ E') ∧ lost.length ≤ 1) := by
  intro E'
  have noGive : ∀ {o : Obj} {n : Nat}, get h t = .live n o →
      (∀ cs p, o = .tree cs p → cs[i]? ≠ some none) → E' = E := by
    intro o n hn hno
    show without E ((Op.dynamicChild t i cb).gives h) = E
    cases cb with
    | gives r =>
      simp only [Op.gives, hn]
      cases o with
      | tree cs p =>
        dsimp only
        rw [if_neg (hno cs p rfl)]
        rfl
      | _ => rfl
    | _ => rfl
  obtain ⟨n0, o0, hn0⟩ := a
  by_cases hk0 : o0.kind = .tree
  · obtain ⟨cs, p, rfl⟩ := kind_tree hk0
    refine runs_bind (runs_check_ok ⟨n0, _, hn0, rfl⟩) ?_
    rintro o _ ⟨rfl, n, hn, -⟩
    rw [hn0] at hn; cases hn
    dsimp only
    cases hi : cs[i]? with
    | none =>
      rw [noGive hn0 (by intro cs' p' e; cases e; rw [hi]; simp)]
      exact ⟨[], f, by simp⟩
    | some x =>
      cases x with
      | some x =>
        rw [noGive hn0 (by intro cs' p' e; cases e; rw [hi]; simp)]
        exact f
      | none =>
        dsimp only
        have at' : Alive h t := ⟨n0, _, hn0⟩
        -- whatever the child, once the caller owns it
        have rest : ∀ (c : Ref) (h1 : Heap) (F : List Ref), Full h1 (c :: F) → Alive h1 t → ¬ Below h1 c t →
            Room h1 1 → Runs (do setChild t i c; release c) h1 (fun _ h' => Full h' F)
              (fun h' => ∃ lost, Full h' (lost ++ F) ∧ lost.length ≤ 1) := by
          intro c h1 F f1 a1 hne r1
          refine runs_bind (runs_mono (runs_setChild f1 a1 (f1.alive (by simp)) hne r1) (fun _ _ q => q)
            (fun _ q => ⟨[c], q.full f1, by simp⟩)) ?_
          intro _ h2 f2
          exact runs_mono (runs_release f2) (fun _ _ q => q.1) (fun _ q => ⟨[], q.1, by simp⟩)
        cases cb with
        | fails e => exact ⟨[], f, by simp⟩
        | fresh k =>
          refine runs_bind (runs_mono (runs_newLeaf f (.tree k) none) (fun _ _ q => q)
            (fun _ q => ⟨[], q.full f, by simp⟩)) ?_
          rintro c h1 ⟨⟨f1, s1⟩, e1, rfl⟩
          refine rest _ h1 E f1 (s1.alive at') (fun b => ?_) (by rw [e1]; exact room_append _ hroom)
          -- the new tree has no children
          have alone : ∀ x, Below h1 h.length x → x = h.length := by
            intro x b
            induction b with
            | refl => rfl
            | child _ hx hy ih =>
              rw [ih, e1, get_append_self] at hx
              cases hx
              simp at hy
          exact absurd (alone t b) (Nat.ne_of_lt (lt_of_live hn0))
        | gives r =>
          obtain ⟨hr, hne⟩ := hcb r rfl
          refine runs_bind (P := fun c h' => r = c ∧ h = h') ⟨rfl, rfl⟩ ?_
          rintro _ _ ⟨rfl, rfl⟩
          have he : E' = E.erase r := by
            show without E ((Op.dynamicChild t i (.gives r)).gives h) = _
            simp only [Op.gives, hn0, hi, if_true, without]
          rw [he]
          refine rest _ _ _ (f.perm fun x => ?_) at' hne hroom
          rw [List.count_cons, List.count_erase]
          by_cases hx : x = r
          · subst hx
            have : 0 < E.count x := List.count_pos_iff.2 hr
            simp
            omega
          · simp [Ne.symm hx]
  · have hc : dynamicChild t i cb h = .err .invalidObject h := by
      show Act.bind (check t .tree) _ h = _
      unfold Act.bind
      have : check t .tree h = .err .invalidObject h := by
        show Act.bind (load t) _ h = _
        unfold Act.bind load
        rw [hn0]
        dsimp only
        rw [if_neg hk0]
        rfl
      rw [this]
    unfold Runs
    rw [hc, noGive hn0 (by intro cs p e; rw [e] at hk0; exact absurd rfl hk0)]
    exact ⟨[], f, by simp⟩

/-! ## Every call -/

/-- What a call leaves: counts are right but for at most one reference nobody owns, which only a call
that fails leaves, and only of some functions; most calls that fail change nothing. -/
def Leaves (s : State) (op : Op) (lost : List Ref) (code : Option Err) (got : List Ref) (h' : Heap) : Prop :=
  ∃ new, Full h' (got ++ without s.ext (op.gives s.heap) ++ (new ++ lost)) ∧ new.length ≤ 1 ∧
    (new ≠ [] → op.careless ∧ code ≠ none) ∧
    (code ≠ none → ¬ op.careless → ¬ op.gradual →
      Unchanged s.heap h' ∧ got = [] ∧ op.gives s.heap = none)

theorem leaves_one {s : State} {op : Op} {lost : List Ref} {a : Act Ref} (hg : op.gives s.heap = none)
    (f : Full s.heap (s.ext ++ lost))
    (r : Runs a s.heap (Made (s.ext ++ lost) s.heap) (Unchanged s.heap)) :
    Runs (one a) s.heap (fun x h' => Leaves s op lost x.1 x.2 h')
      (fun h' => ∀ e, Leaves s op lost (some e) [] h') := by
  refine runs_bind (runs_mono r (fun _ _ q => q) fun h' q e => ⟨[], ?_, by simp, by simp, fun _ _ _ => ⟨q, rfl, hg⟩⟩) ?_
  · rw [hg]; exact q.full f
  · rintro x h' ⟨f', -⟩
    exact ⟨[], by rw [hg]; exact f', by simp, by simp, by simp⟩

theorem leaves_unit {s : State} {op : Op} {lost : List Ref} {a : Act Unit} (hg : op.gives s.heap = none)
    (f : Full s.heap (s.ext ++ lost))
    (r : Runs a s.heap (fun _ h' => Full h' (s.ext ++ lost)) (Unchanged s.heap)) :
    Runs (unit a) s.heap (fun x h' => Leaves s op lost x.1 x.2 h')
      (fun h' => ∀ e, Leaves s op lost (some e) [] h') := by
  refine runs_bind (runs_mono r (fun _ _ q => q) fun h' q e => ⟨[], ?_, by simp, by simp, fun _ _ _ => ⟨q, rfl, hg⟩⟩) ?_
  · rw [hg]; exact q.full f
  · rintro x h' f'
    exact ⟨[], by rw [hg]; exact f', by simp, by simp, by simp⟩

theorem leaves_gradual {s : State} {op : Op} {lost : List Ref} {a : Act Unit} (hg : op.gives s.heap = none)
    (hop : op.gradual)
    (r : Runs a s.heap (fun _ h' => Full h' (s.ext ++ lost)) (fun h' => Full h' (s.ext ++ lost))) :
    Runs (unit a) s.heap (fun x h' => Leaves s op lost x.1 x.2 h')
      (fun h' => ∀ e, Leaves s op lost (some e) [] h') := by
  refine runs_bind (runs_mono r (fun _ _ q => q) fun h' q e =>
    ⟨[], ?_, by simp, by simp, fun _ _ n => absurd hop n⟩) ?_
  · rw [hg]; exact q
  · rintro x h' f'
    exact ⟨[], by rw [hg]; exact f', by simp, by simp, by simp⟩

theorem leaves_sampled {s : State} {op : Op} {lost : List Ref} {a : Act (Option Err × List Ref)}
    (hg : op.gives s.heap = none) (hop : op.careless) (f : Full s.heap (s.ext ++ lost))
    (r : Runs a s.heap (Sampled (s.ext ++ lost)) (Unchanged s.heap)) :
    Runs a s.heap (fun x h' => Leaves s op lost x.1 x.2 h')
      (fun h' => ∀ e, Leaves s op lost (some e) [] h') := by
  refine runs_mono r ?_ fun h' q e => ⟨[], ?_, by simp, by simp, fun _ n => absurd hop n⟩
  · rintro x h' ⟨new, f', hn, hx⟩
    refine ⟨new, ?_, hn, fun h0 => ⟨hop, ?_⟩, fun _ n => absurd hop n⟩
    · rw [hg]
      refine f'.perm fun y => ?_
      simp only [without, List.count_append]
      omega
    · rw [hx h0]; simp
  · rw [hg]; exact q.full f

theorem count_without {E : List Ref} {r : Ref} (hr : r ∈ E) (x : Ref) :
    E.count x = (r :: E.erase r).count x := by
  rw [List.count_cons, List.count_erase]
  by_cases hx : x = r
  · subst hx
    have : 0 < E.count x := List.count_pos_iff.2 hr
    simp
    omega
  · simp [Ne.symm hx]

theorem runs_act {s : State} {op : Op} {lost : List Ref} (f : Full s.heap (s.ext ++ lost))
    (fair : Fair s op) :
    Runs op.act s.heap (fun x h' => Leaves s op lost x.1 x.2 h')
      (fun h' => ∀ e, Leaves s op lost (some e) [] h') := by
  have al : ∀ r ∈ op.args, Alive s.heap r := fun r hr =>
    f.reach (fun x hx => List.mem_append_left _ hx) (fair.args r hr)
  have room : Room s.heap op.size := ⟨fair.size, fair.room⟩
  have two : op.size = 3 → Room s.heap 2 := fun h => room.mono (by omega)
  have made : ∀ {a : Act Ref} {p : Ref → Heap → Prop}, Runs a s.heap (fun r h' => Made (s.ext ++ lost) s.heap r h' ∧ p r h')
      (Unchanged s.heap) → Runs a s.heap (Made (s.ext ++ lost) s.heap) (Unchanged s.heap) :=
    fun r => runs_mono r (fun _ _ q => q.1) (fun _ q => q)
  have forest := fair.forest
  cases op with
  | retain r =>
    have ar := al r (by simp [Op.args])
    refine runs_bind (runs_retain (k := 0) ar (room.mono (by simp [Op.size]))) ?_
    rintro _ _ rfl
    exact ⟨[], f.bump ar, by simp, by simp, by simp⟩
  | release r =>
    have hr := fair.owned r (by simp [Op.owned])
    have f1 : Full s.heap (r :: (s.ext.erase r ++ lost)) := f.perm fun x => by
      have := count_without hr x
      simp only [List.count_append, List.count_cons] at this ⊢
      omega
    refine runs_bind (runs_mono (runs_release f1) (fun _ _ q => q) fun h' q e =>
      ⟨[], q.1, by simp, by simp, fun _ _ n => absurd trivial n⟩) ?_
    rintro _ h' ⟨f', -⟩
    exact ⟨[], f', by simp, by simp, by simp⟩
  | leaf l v => exact leaves_one rfl f (made (runs_newLeaf f l v))
  | composite ps v => exact leaves_one rfl f (runs_newComposite f al room)
  | var p => exact leaves_one rfl f (made (runs_newVariable f (al p (by simp [Op.args])) (k := 0) (room.mono (by simp [Op.size]))))
  | expression ns v =>
    refine leaves_one rfl f (runs_newExpression f (fun r hr => al r ?_) room)
    exact List.mem_filterMap.2 ⟨_, hr, rfl⟩
  | configurationSpace => exact leaves_one rfl f (runs_newConfigurationSpace f)
  | configuration c v w =>
    have ac := al c (by simp [Op.args])
    refine runs_bind (runs_mono (runs_newConfiguration f ac (k := 0) (room.mono (by simp [Op.size])))
      (fun _ _ q => q) ?_) ?_
    · rintro h' (q | ⟨-, q, -⟩) e
      · exact ⟨[], q.full f, by simp, by simp, fun _ n => absurd trivial n⟩
      · refine ⟨[c], q.perm fun x => ?_, by simp, fun _ => ⟨trivial, by simp⟩, fun _ n => absurd trivial n⟩
        simp only [Op.gives, without, List.nil_append, List.count_append, List.count_cons, List.count_nil]
        omega
    · rintro x h' ⟨⟨f', -⟩, -⟩
      exact ⟨[], f', by simp, by simp, by simp⟩
  | features c v w => exact leaves_one rfl f (runs_newFeatures f (al c (by simp [Op.args])) (room.mono (by simp [Op.size])))
  | evaluation os c v w =>
    exact leaves_one rfl f (runs_newEvaluation f (al os (by simp [Op.args])) (al c (by simp [Op.args])) (two rfl))
  | featuresEvaluation os c g v w =>
    exact leaves_one rfl f (runs_newFeaturesEvaluation f (al os (by simp [Op.args])) (al c (by simp [Op.args]))
      (al g (by simp [Op.args])) room)
  | treeEvaluation os c v w =>
    exact leaves_one rfl f (runs_newTreeEvaluation f (al os (by simp [Op.args])) (al c (by simp [Op.args])) (two rfl))
  | tuner cs os =>
    exact leaves_one rfl f (runs_newTuner f (al cs (by simp [Op.args])) (al os (by simp [Op.args])) (two rfl) rfl rfl rfl
      (by simp [Obj.kind]))
  | userTuner cs os d =>
    exact leaves_one rfl f (runs_newTuner f (al cs (by simp [Op.args])) (al os (by simp [Op.args])) (two rfl) rfl rfl rfl
      (by simp [Obj.kind]))
  | featuresTuner cs os fs =>
    exact leaves_one rfl f (runs_newFeaturesTuner f (al cs (by simp [Op.args])) (al os (by simp [Op.args]))
      (al fs (by simp [Op.args])) room rfl rfl rfl (by simp [Obj.kind]))
  | userFeaturesTuner cs os fs d =>
    exact leaves_one rfl f (runs_newFeaturesTuner f (al cs (by simp [Op.args])) (al os (by simp [Op.args]))
      (al fs (by simp [Op.args])) room rfl rfl rfl (by simp [Obj.kind]))
  | treeTuner ts os =>
    exact leaves_one rfl f (runs_newTreeTuner f (al ts (by simp [Op.args])) (al os (by simp [Op.args])) (two rfl) rfl rfl rfl
      (by simp [Obj.kind]))
  | userTreeTuner ts os d =>
    exact leaves_one rfl f (runs_newTreeTuner f (al ts (by simp [Op.args])) (al os (by simp [Op.args])) (two rfl) rfl rfl rfl
      (by simp [Obj.kind]))
  | treeSpace t =>
    exact leaves_one rfl f (runs_newTreeSpace f (al t (by simp [Op.args])) (room.mono (by simp [Op.size])) (fun _ => rfl)
      (fun _ => rfl) (fun _ => rfl) (by simp [Obj.kind]))
  | dynamicTreeSpace t d =>
    exact leaves_one rfl f (runs_newTreeSpace f (al t (by simp [Op.args])) (room.mono (by simp [Op.size])) (fun _ => rfl)
      (fun _ => rfl) (fun _ => rfl) (by simp [Obj.kind]))
  | treeConfiguration c =>
    exact leaves_one rfl f (made (runs_newTreeConfiguration f (al c (by simp [Op.args])) (k := 0) (room.mono (by simp [Op.size]))))
  | setRng c g =>
    exact leaves_unit rfl f (runs_setRng f (al c (by simp [Op.args])) (al g (by simp [Op.args])) (room.mono (by simp [Op.size])))
  | setTreeRng c g =>
    exact leaves_unit rfl f (runs_setTreeRng f (al c (by simp [Op.args])) (al g (by simp [Op.args])) (room.mono (by simp [Op.size])))
  | addParameter c p d v w =>
    exact leaves_unit rfl f (runs_addParameter f (al c (by simp [Op.args])) (al p (by simp [Op.args]))
      (fun x hx => al x (by subst hx; simp [Op.args])) (two rfl))
  | setDistribution c d is v w =>
    exact leaves_unit rfl f (runs_setDistribution f (al c (by simp [Op.args])) (al d (by simp [Op.args])) (room.mono (by simp [Op.size])))
  | setCondition c i e v =>
    exact leaves_unit rfl f (runs_setCondition f (al c (by simp [Op.args])) (al e (by simp [Op.args])) (room.mono (by simp [Op.size])))
  | addClause c e v w x =>
    exact leaves_unit rfl f (runs_addClause f (al c (by simp [Op.args])) (al e (by simp [Op.args])) (two rfl))
  | addFeature c p v =>
    exact leaves_unit rfl f (runs_addFeature f (al c (by simp [Op.args])) (al p (by simp [Op.args])) (room.mono (by simp [Op.size])))
  | addObjectiveParameter c p v =>
    exact leaves_unit rfl f (runs_addObjectiveParameter f (al c (by simp [Op.args])) (al p (by simp [Op.args])) (room.mono (by simp [Op.size])))
  | addObjective c e v =>
    exact leaves_unit rfl f (runs_mono (runs_addObjective f (al c (by simp [Op.args])) (al e (by simp [Op.args])) (k := 0)
      (room.mono (by simp [Op.size]))) (fun _ _ q => q.1) (fun _ q => q))
  | addObjectives c es =>
    refine leaves_gradual rfl trivial (runs_addObjectives es f (al c (by simp [Op.args])) (fun e he => al _ ?_) room)
    exact List.mem_cons_of_mem _ (List.mem_map_of_mem he)
  | sample c d =>
    exact leaves_one rfl f (runs_sample f (al c (by simp [Op.args])) (room.mono (by simp [Op.size])))
  | samples c n ds =>
    exact leaves_sampled rfl trivial f (runs_samples f (al c (by simp [Op.args])) (room.mono (by simp [Op.size])))
  | treeSamples c ds =>
    refine runs_mono (runs_treeSamples f (al c (by simp [Op.args])) ds room) ?_ fun h' q e =>
      ⟨[], q.full f, by simp, by simp, fun _ _ n => absurd trivial n⟩
    rintro x h' q
    refine ⟨[], q.perm fun y => ?_, by simp, by simp, fun _ _ n => absurd trivial n⟩
    simp only [Op.gives, without, List.nil_append, List.count_append]
    omega
  | ask t n ds =>
    exact leaves_sampled rfl trivial f (runs_ask f (al t (by simp [Op.args])) (room.mono (by simp [Op.size])))
  | tell cmp t es =>
    refine leaves_gradual rfl trivial (runs_tell es f (al t (by simp [Op.args])) (fun e he => al _ ?_) room)
    exact List.mem_cons_of_mem _ (List.mem_map_of_mem he)
  | suggest t pick ds =>
    exact leaves_sampled rfl trivial f (runs_suggest f (al t (by simp [Op.args])) (room.mono (by simp [Op.size])))
  | mapSet m k v =>
    exact leaves_unit rfl f (runs_mapSet f (List.mem_append_left _ (fair.owned m (by simp [Op.owned])))
      (fun r hr => al r (by simp [Op.args, hr])) (fun r hr => al r (by simp [Op.args, hr])) (two rfl))
  | mapDel m k =>
    exact leaves_unit rfl f (runs_mapDel f (List.mem_append_left _ (fair.owned m (by simp [Op.owned]))))
  | setChild t i c =>
    exact leaves_unit rfl f (runs_setChild f (al t (by simp [Op.args])) (al c (by simp [Op.args]))
      (forest t i c (.inl rfl)) (room.mono (by simp [Op.size])))
  | dynamicChild t i cb =>
    have hE : without (s.ext ++ lost) ((Op.dynamicChild t i cb).gives s.heap) =
        without s.ext ((Op.dynamicChild t i cb).gives s.heap) ++ lost := by
      cases hg : (Op.dynamicChild t i cb).gives s.heap with
      | none => rfl
      | some r =>
        refine List.erase_append_left _ (fair.owned r ?_)
        cases cb with
        | gives x =>
          simp only [Op.gives] at hg
          have : r = x := by
            split at hg
            · split at hg
              · exact (Option.some.inj hg).symm
              · exact nomatch hg
            · exact nomatch hg
          simp [Op.owned, this]
        | _ => exact nomatch hg
    have key := runs_dynamicChild (i := i) (cb := cb) f (al t (by simp [Op.args]))
      (fun r hr => ⟨List.mem_append_left _ (fair.owned r (by subst hr; simp [Op.owned])),
        forest t i r (.inr (by rw [hr]))⟩) (room.mono (by simp [Op.size]))
    dsimp only at key
    rw [hE] at key
    refine runs_bind (runs_mono key (fun _ _ q => q) ?_) ?_
    · rintro h' ⟨new, q, hn⟩ e
      refine ⟨new, q.perm fun x => ?_, hn, fun _ => ⟨trivial, by simp⟩, fun _ n => absurd trivial n⟩
      simp only [List.nil_append, List.count_append]
      omega
    · rintro _ h' q
      exact ⟨[], q, by simp, by simp, by simp⟩

/-- A fair call is defined, and keeps counts right. -/
theorem step_full {s : State} {op : Op} {lost : List Ref} (f : Full s.heap (s.ext ++ lost))
    (fair : Fair s op) : ∃ code s' new, step s op = some (code, s') ∧
      Full s'.heap (s'.ext ++ (new ++ lost)) ∧ new.length ≤ 1 ∧
      (new ≠ [] → op.careless ∧ code ≠ none) ∧
      (code ≠ none → ¬ op.careless → ¬ op.gradual → Unchanged s.heap s'.heap ∧ s'.ext = s.ext) := by
  have := runs_act f fair
  unfold Runs at this
  unfold step
  cases h : op.act s.heap with
  | ub => rw [h] at this; exact this.elim
  | ok x h' =>
    rw [h] at this
    obtain ⟨new, q, h1, h2, h3⟩ := this
    refine ⟨_, _, new, rfl, q, h1, h2, fun a b c => ?_⟩
    obtain ⟨u, e, g⟩ := h3 a b c
    exact ⟨u, by rw [e, g]; rfl⟩
  | err e h' =>
    rw [h] at this
    obtain ⟨new, q, h1, h2, h3⟩ := this e
    refine ⟨_, _, new, rfl, q, h1, h2, fun a b c => ?_⟩
    obtain ⟨u, -, g⟩ := h3 a b c
    exact ⟨u, by rw [g]; rfl⟩

end CCS.Own
