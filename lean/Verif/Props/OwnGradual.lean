import Verif.Props.Own

/-!
Calls that handle several objects one after the other (C105): what they leave when they are refused on the way.
-/

namespace CCS.Own.Props

open CCS

theorem bind_err {α β : Type} {a : Act α} {f : α → Act β} {h h' : Heap} {e : Err} (q : (a >>= f) h = .err e h') :
    a h = .err e h' ∨ ∃ x h1, a h = .ok x h1 ∧ f x h1 = .err e h' := by
  change Act.bind a f h = _ at q
  unfold Act.bind at q
  cases ha : a h with
  | ok x h1 => rw [ha] at q; exact .inr ⟨x, h1, rfl, q⟩
  | err e1 h1 => rw [ha] at q; cases q; exact .inl rfl
  | ub => rw [ha] at q; cases q

theorem bind_ok {α β : Type} {a : Act α} {f : α → Act β} {h h1 : Heap} {x : α} (q : a h = .ok x h1) :
    (a >>= f) h = f x h1 := by
  change Act.bind a f h = _
  unfold Act.bind
  rw [q]

theorem bind_of_err {α β : Type} {a : Act α} {f : α → Act β} {h h1 : Heap} {e : Err} (q : a h = .err e h1) :
    (a >>= f) h = .err e h1 := by
  change Act.bind a f h = _
  unfold Act.bind
  rw [q]

theorem load_same {r : Ref} {h h1 : Heap} {o : Obj} (q : load r h = .ok o h1) : h1 = h := by
  unfold load at q
  cases hg : get h r with
  | live n o' => rw [hg] at q; cases q; rfl
  | dying => rw [hg] at q; cases q
  | freed => rw [hg] at q; cases q

theorem load_no_err {r : Ref} {h h1 : Heap} {e : Err} : load r h ≠ .err e h1 := by
  intro q
  unfold load at q
  cases hg : get h r with
  | live n o' => rw [hg] at q; cases q
  | dying => rw [hg] at q; cases q
  | freed => rw [hg] at q; cases q

theorem check_same {r : Ref} {k : Kind} {h h1 : Heap} {o : Obj} (q : check r k h = .ok o h1) : h1 = h := by
  unfold check at q
  change Act.bind (load r) _ h = _ at q
  unfold Act.bind at q
  cases hl : load r h with
  | ub => rw [hl] at q; cases q
  | err e h2 => exact absurd hl load_no_err
  | ok o' h2 =>
    have := load_same hl
    subst this
    rw [hl] at q
    by_cases hk : o'.kind = k
    · simp only [hk, if_true] at q
      cases q
      rfl
    · simp only [hk, if_false] at q
      cases q

theorem check_err_same {r : Ref} {k : Kind} {h h1 : Heap} {e : Err} (q : check r k h = .err e h1) : h1 = h := by
  rcases bind_err q with q | ⟨o, h2, q1, q2⟩
  · exact absurd q load_no_err
  · have := load_same q1
    subst this
    by_cases hk : o.kind = k
    · simp only [hk, if_true] at q2
      cases q2
    · simp only [hk, if_false] at q2
      cases q2
      rfl

theorem retain_err_same {r : Ref} {h h1 : Heap} {e : Err} (q : retain r h = .err e h1) : h1 = h := by
  unfold retain at q
  cases hg : get h r with
  | live n o' =>
    rw [hg] at q
    by_cases hn : n < 2 ^ 31 - 1
    · simp only [hn, if_true] at q; cases q
    · simp only [hn, if_false] at q; cases q
  | dying => rw [hg] at q; cases q; rfl
  | freed => rw [hg] at q; cases q

theorem store_no_err {r : Ref} {o : Obj} {h h1 : Heap} {e : Err} : store r o h ≠ .err e h1 := by
  intro q
  unfold store at q
  cases hg : get h r with
  | live n o' => rw [hg] at q; cases q
  | dying => rw [hg] at q; cases q
  | freed => rw [hg] at q; cases q

theorem addObjective_err_same {s x : Ref} {v : Option Err} {h h1 : Heap} {e : Err}
    (q : addObjective s x v h = .err e h1) : h1 = h := by
  rcases bind_err q with q | ⟨o, h2, q1, q2⟩
  · exact check_err_same q
  have := check_same q1; subst this
  rcases bind_err q2 with q | ⟨o', h3, q3, q4⟩
  · exact check_err_same q
  have := check_same q3; subst this
  rcases bind_err q4 with q | ⟨_, h4, q5, q6⟩
  · cases v with
    | none => cases q
    | some w => cases q; rfl
  · have : h4 = h3 := by
      cases v with
      | none => cases q5; rfl
      | some w => cases q5
    subst this
    cases o with
    | objectiveSpace ps os =>
      rcases bind_err q6 with q | ⟨_, h5, -, q7⟩
      · exact retain_err_same q
      · exact absurd q7 store_no_err
    | _ => cases q6

theorem check_of_live {r : Ref} {k : Kind} {h : Heap} {n : Nat} {o : Obj} (q : get h r = .live n o) (hk : o.kind = k) :
    check r k h = .ok o h := by
  change Act.bind (load r) _ h = _
  unfold Act.bind load
  rw [q]
  simp only [hk, if_true]
  rfl

theorem store_live {r : Ref} {o : Obj} {h h1 : Heap} (q : store r o h = .ok () h1) : ∃ n, get h1 r = .live n o := by
  unfold store at q
  cases hg : get h r with
  | live n o' => rw [hg] at q; cases q; exact ⟨n, get_set_self _ (lt_of_live hg)⟩
  | dying => rw [hg] at q; cases q
  | freed => rw [hg] at q; cases q

theorem bind_okay {α β : Type} {a : Act α} {f : α → Act β} {h h' : Heap} {y : β} (q : (a >>= f) h = .ok y h') :
    ∃ x h1, a h = .ok x h1 ∧ f x h1 = .ok y h' := by
  change Act.bind a f h = _ at q
  unfold Act.bind at q
  cases ha : a h with
  | ok x h1 => rw [ha] at q; exact ⟨x, h1, rfl, q⟩
  | err e1 h1 => rw [ha] at q; cases q
  | ub => rw [ha] at q; cases q

/-- An objective space is still one after an objective was added. -/
theorem addObjective_space {s x : Ref} {v : Option Err} {h h1 : Heap} (q : addObjective s x v h = .ok () h1) :
    ∃ o, check s .objectiveSpace h1 = .ok o h1 := by
  obtain ⟨o, h2, q1, q2⟩ := bind_okay q
  obtain ⟨o', h3, -, q3⟩ := bind_okay q2
  obtain ⟨_, h4, -, q4⟩ := bind_okay q3
  cases o with
  | objectiveSpace ps os =>
    obtain ⟨_, h5, -, q5⟩ := bind_okay q4
    obtain ⟨n, hn⟩ := store_live q5
    exact ⟨_, check_of_live hn rfl⟩
  | _ => cases q4

/-- The first objective that is refused, if the call is. -/
theorem addObjectives_err {s : Ref} : ∀ (es : List (Ref × Option Err)) {h h' : Heap} {e : Err} {o : Obj},
    check s .objectiveSpace h = .ok o h → addObjectives s es h = .err e h' →
      ∃ pre x suf, es = pre ++ x :: suf ∧ addObjectives s pre h = .ok () h' ∧ addObjective s x.1 x.2 h' = .err e h'
  | [], h, h', e, o, hc, q => by
    have : addObjectives s [] h = .ok () h := bind_ok hc
    rw [this] at q
    cases q
  | x :: es, h, h', e, o, hc, q => by
    rcases bind_err q with q | ⟨_, h2, q1, q2⟩
    · have := addObjective_err_same q
      subst this
      exact ⟨[], x, es, rfl, bind_ok hc, q⟩
    · obtain ⟨o', hc'⟩ := addObjective_space q1
      obtain ⟨pre, y, suf, rfl, q3, q4⟩ := addObjectives_err es hc' q2
      refine ⟨x :: pre, y, suf, rfl, ?_, q4⟩
      show (addObjective s x.1 x.2 >>= fun _ => addObjectives s pre) h = _
      rw [bind_ok q1]
      exact q3

theorem unit_ok {a : Act Unit} {h h' : Heap} (q : a h = .ok () h') : unit a h = .ok (none, []) h' := bind_ok q

theorem unit_err {a : Act Unit} {h h' : Heap} {e : Err} (q : a h = .err e h') : unit a h = .err e h' := bind_of_err q

theorem of_unit_err {a : Act Unit} {h h' : Heap} {e : Err} (q : unit a h = .err e h') : a h = .err e h' := by
  rcases bind_err q with q | ⟨_, _, _, q2⟩
  · exact q
  · cases q2

theorem unit_code {a : Act Unit} {h h' : Heap} {x : Option Err × List Ref} (q : unit a h = .ok x h') : x = (none, []) := by
  obtain ⟨_, h1, -, q2⟩ := bind_okay q
  cases q2
  rfl

/-- **C105** When `ccs_objective_space_add_objectives` is refused, either nothing has changed, or the objectives before one of them have been
added, exactly as if only these had been asked for, and that one is refused for the same reason whenever it is tried again. -/
theorem C105_objectives_partial {s s' : State} {t : Ref} {es : List (Ref × Option Err)} {e : Err}
    (he : step s (.addObjectives t es) = some (some e, s')) :
    s' = s ∨ ∃ pre x suf, es = pre ++ x :: suf ∧ step s (.addObjectives t pre) = some (none, s') ∧
      step s' (.addObjective t x.1 x.2) = some (some e, s') := by
  unfold step at he
  change (match unit (addObjectives t es) s.heap with
    | .ok (code, got) h => some (code, (⟨h, got ++ s.ext⟩ : State))
    | .err e h => some (some e, ⟨h, s.ext⟩)
    | .ub => none) = _ at he
  cases hu : unit (addObjectives t es) s.heap with
  | ub => rw [hu] at he; cases he
  | ok x h' => rw [hu, unit_code hu] at he; cases he
  | err e' h' =>
    rw [hu] at he
    cases he
    have q := of_unit_err hu
    cases hc : check t .objectiveSpace s.heap with
    | ub =>
      exfalso
      cases es with
      | nil =>
        have : addObjectives t [] s.heap = .ub := by
          change Act.bind (check t .objectiveSpace) _ s.heap = _
          unfold Act.bind
          rw [hc]
        rw [this] at q
        cases q
      | cons x es =>
        have h1 : addObjective t x.1 x.2 s.heap = .ub := by
          change Act.bind (check t .objectiveSpace) _ s.heap = _
          unfold Act.bind
          rw [hc]
        have : addObjectives t (x :: es) s.heap = .ub := by
          change Act.bind (addObjective t x.1 x.2) _ s.heap = _
          unfold Act.bind
          rw [h1]
        rw [this] at q
        cases q
    | err e1 h1 =>
      have := check_err_same hc
      subst this
      left
      have h2 : addObjectives t es s.heap = .err e1 s.heap := by
        cases es with
        | nil => exact bind_of_err hc
        | cons x es =>
          have h3 : addObjective t x.1 x.2 s.heap = .err e1 s.heap := bind_of_err hc
          exact bind_of_err h3
      rw [h2] at q
      cases q
      rfl
    | ok o h1 =>
      have := check_same hc
      subst this
      obtain ⟨pre, x, suf, rfl, q1, q2⟩ := addObjectives_err es hc q
      refine .inr ⟨pre, x, suf, rfl, ?_, ?_⟩
      · show (match unit (addObjectives t pre) s.heap with
          | .ok (code, got) h => some (code, (⟨h, got ++ s.ext⟩ : State))
          | .err e h => some (some e, ⟨h, s.ext⟩)
          | .ub => none) = _
        rw [unit_ok q1]
        rfl
      · show (match unit (addObjective t x.1 x.2) h' with
          | .ok (code, got) h => some (code, (⟨h, got ++ s.ext⟩ : State))
          | .err e h => some (some e, ⟨h, s.ext⟩)
          | .ub => none) = _
        rw [unit_err q2]

/-- **C105** False for several objectives: the second one is refused, the first one stays. -/
theorem C105_objectives_stay (e : Err) : ∃ ops s s', Reached ops s ∧ Fair s (.addObjectives 0 [(1, none), (1, some e)]) ∧
    step s (.addObjectives 0 [(1, none), (1, some e)]) = some (some e, s') ∧
    get s.heap 0 = .live 1 (.objectiveSpace [] []) ∧ get s'.heap 0 = .live 1 (.objectiveSpace [] [1]) :=
  ⟨[.leaf .objectiveSpace none, .leaf .literal none],
    ⟨[.live 1 (.objectiveSpace [] []), .live 1 .literal], [1, 0]⟩,
    ⟨[.live 1 (.objectiveSpace [] [1]), .live 2 .literal], [1, 0]⟩,
    ⟨.of rfl, rfl⟩, fair_of_fairly rfl, rfl, rfl, rfl⟩

/-! ## Telling -/

theorem bind_same {α β : Type} {a : Act α} {f g : α → Act β} {h : Heap} (q : ∀ x h1, a h = .ok x h1 → f x h1 = g x h1) :
    (a >>= f) h = (a >>= g) h := by
  change Act.bind a f h = Act.bind a g h
  unfold Act.bind
  cases ha : a h with
  | ok x h1 => exact q x h1 ha
  | err e h1 => rfl
  | ub => rfl

theorem bind_bind {α β γ : Type} (a : Act α) (f : α → Act β) (g : β → Act γ) (h : Heap) :
    ((a >>= f) >>= g) h = (a >>= fun x => f x >>= g) h := by
  change Act.bind (Act.bind a f) g h = Act.bind a (fun x => Act.bind (f x) g) h
  unfold Act.bind
  cases a h <;> rfl

theorem tell_nil_ok {cmp : Ref → Ref → Verdict4} {t : Ref} {h : Heap} {o : Obj} (q : load t h = .ok o h) :
    tell cmp t [] h = .ok () h := bind_ok q

theorem load_of_live {r : Ref} {h : Heap} {n : Nat} {o : Obj} (q : get h r = .live n o) : load r h = .ok o h := by
  unfold load
  rw [q]

/-- Telling several evaluations is telling the first, then the others. -/
theorem tell_cons (cmp : Ref → Ref → Verdict4) (t : Ref) (x : Ref × Bool) (es : List (Ref × Bool)) (h : Heap) :
    tell cmp t (x :: es) h = (tell cmp t [x] >>= fun _ => tell cmp t es) h := by
  have go : ∀ (rest : Act Unit) (h1 : Heap) (n : Nat) (o : Obj), get h1 t = .live n o →
      rest h1 = (tell cmp t [] >>= fun _ => rest) h1 := by
    intro rest h1 n o hn
    rw [bind_ok (tell_nil_ok (load_of_live hn))]
  obtain ⟨x, good⟩ := x
  show (load t >>= _) h = ((load t >>= _) >>= _) h
  rw [bind_bind]
  refine bind_same fun o h1 q => ?_
  have hl := load_same q
  subst hl
  cases hk : o.takes with
  | none => rfl
  | some k =>
    show (check x k >>= _) h1 = ((check x k >>= _) >>= _) h1
    rw [bind_bind]
    refine bind_same fun o1 h2 q1 => ?_
    have hl := check_same q1
    subst hl
    cases good with
    | false =>
      cases hg : get h2 t with
      | live n o' => exact go _ _ _ _ hg
      | dying => unfold load at q; rw [hg] at q; cases q
      | freed => unfold load at q; rw [hg] at q; cases q
    | true =>
      show (ignore (retain x) >>= _) h2 = ((ignore (retain x) >>= _) >>= _) h2
      rw [bind_bind]
      refine bind_same fun _ h3 _ => ?_
      rw [bind_bind]
      refine bind_same fun opt h4 _ => ?_
      rw [bind_bind]
      refine bind_same fun _ h5 q5 => ?_
      obtain ⟨n, hn⟩ := store_live q5
      exact go _ _ _ _ hn

theorem newOptima_no_err {cmp : Ref → Ref → Verdict4} {x : Ref} : ∀ (l : List Ref) (d : Bool) {h h' : Heap} {e : Err},
    newOptima cmp x l d h ≠ .err e h'
  | [], _, _, _, _, q => nomatch q
  | y :: l, true, _, _, _, q => by
    rcases bind_err q with q | ⟨_, _, _, q2⟩
    · exact newOptima_no_err l true q
    · cases q2
  | y :: l, false, _, _, _, q => by
    rcases bind_err q with q | ⟨_, h1, _, q2⟩
    · exact load_no_err q
    · have cons : ∀ d h' e, (newOptima cmp x l d >>= fun l => pure (y :: l)) h1 ≠ .err e h' := by
        intro d h' e q
        rcases bind_err q with q | ⟨_, _, _, q2⟩
        · exact newOptima_no_err l d q
        · cases q2
      cases hc : cmp x y with
      | error => simp only [hc] at q2; exact newOptima_no_err l true q2
      | worse => simp only [hc] at q2; exact cons _ _ _ q2
      | better => simp only [hc] at q2; exact newOptima_no_err l false q2
      | incomparable => simp only [hc] at q2; exact cons _ _ _ q2

theorem ignore_no_err {a : Act Unit} {h h' : Heap} {e : Err} : ignore a h ≠ .err e h' := by
  intro q
  unfold ignore at q
  cases ha : a h with
  | ok x h1 => rw [ha] at q; cases q
  | err e1 h1 => rw [ha] at q; cases q
  | ub => rw [ha] at q; cases q

theorem tell_nil_no_err {cmp : Ref → Ref → Verdict4} {t : Ref} {h h' : Heap} {e : Err} : tell cmp t [] h ≠ .err e h' := by
  intro q
  rcases bind_err q with q | ⟨_, _, _, q2⟩
  · exact load_no_err q
  · cases q2

/-- An evaluation that is refused changes nothing. -/
theorem tell_one_err {cmp : Ref → Ref → Verdict4} {t : Ref} {x : Ref × Bool} {h h' : Heap} {e : Err}
    (q : tell cmp t [x] h = .err e h') : h' = h ∧ tell cmp t [] h = .ok () h := by
  obtain ⟨x, good⟩ := x
  rcases bind_err q with q | ⟨o, h1, q1, q2⟩
  · exact absurd q load_no_err
  have hl := load_same q1
  subst hl
  refine ⟨?_, tell_nil_ok q1⟩
  cases hk : o.takes with
  | none => simp only [hk] at q2; cases q2; rfl
  | some k =>
    simp only [hk] at q2
    rcases bind_err q2 with q | ⟨o1, h2, q3, q4⟩
    · exact check_err_same q
    cases good with
    | false => exact absurd q4 (tell_nil_no_err (cmp := cmp))
    | true =>
      rcases bind_err q4 with q | ⟨_, h3, _, q5⟩
      · exact absurd q ignore_no_err
      rcases bind_err q5 with q | ⟨opt, h4, _, q6⟩
      · exact absurd q (newOptima_no_err _ _)
      rcases bind_err q6 with q | ⟨_, h5, _, q7⟩
      · exact absurd q store_no_err
      · exact absurd q7 tell_nil_no_err

/-- The first evaluation that is refused, if the call is. -/
theorem tell_err {cmp : Ref → Ref → Verdict4} {t : Ref} : ∀ (es : List (Ref × Bool)) {h h' : Heap} {e : Err},
    tell cmp t es h = .err e h' →
      ∃ pre x suf, es = pre ++ x :: suf ∧ tell cmp t pre h = .ok () h' ∧ tell cmp t [x] h' = .err e h'
  | [], h, h', e, q => absurd q tell_nil_no_err
  | x :: es, h, h', e, q => by
    rw [tell_cons] at q
    rcases bind_err q with q | ⟨_, h1, q1, q2⟩
    · obtain ⟨rfl, hn⟩ := tell_one_err q
      exact ⟨[], x, es, rfl, hn, q⟩
    · obtain ⟨pre, y, suf, rfl, q3, q4⟩ := tell_err es q2
      refine ⟨x :: pre, y, suf, rfl, ?_, q4⟩
      rw [tell_cons, bind_ok q1]
      exact q3

/-- **C105** When telling a tuner several evaluations is refused, those before one of them have been recorded, exactly as if only these had
been told, and that one is refused for the same reason whenever it is told again. -/
theorem C105_tell_partial {s s' : State} {t : Ref} {cmp : Ref → Ref → Verdict4} {es : List (Ref × Bool)} {e : Err}
    (he : step s (.tell cmp t es) = some (some e, s')) :
    ∃ pre x suf, es = pre ++ x :: suf ∧ step s (.tell cmp t pre) = some (none, s') ∧
      step s' (.tell cmp t [x]) = some (some e, s') := by
  have on : ∀ (z : State) (l : List (Ref × Bool)), step z (.tell cmp t l) = (match unit (tell cmp t l) z.heap with
    | .ok (code, got) h => some (code, (⟨h, got ++ z.ext⟩ : State))
    | .err e h => some (some e, ⟨h, z.ext⟩)
    | .ub => none) := fun _ _ => rfl
  rw [on] at he
  cases hu : unit (tell cmp t es) s.heap with
  | ub => rw [hu] at he; cases he
  | ok x h' => rw [hu, unit_code hu] at he; cases he
  | err e' h' =>
    rw [hu] at he
    cases he
    obtain ⟨pre, x, suf, rfl, q1, q2⟩ := tell_err es (of_unit_err hu)
    refine ⟨pre, x, suf, rfl, ?_, ?_⟩
    · rw [on, unit_ok q1]
      rfl
    · rw [on, unit_err q2]

/-- **C105** False for telling: the second object is not an evaluation and is refused, the first one stays in the history. -/
theorem C105_tell_stays : ∃ ops s s', Reached ops s ∧ Fair s (.tell (fun _ _ => .better) 5 [(4, true), (3, true)]) ∧
    step s (.tell (fun _ _ => .better) 5 [(4, true), (3, true)]) = some (some .invalidObject, s') ∧
    get s.heap 5 = .live 1 (.tuner 1 2 [] []) ∧ get s'.heap 5 = .live 1 (.tuner 1 2 [4] [4]) :=
  ⟨[.configurationSpace, .leaf .objectiveSpace none, .sample 1 .hit, .evaluation 2 3 none none, .tuner 1 2],
    ⟨[.live 1 .rng, .live 3 (.configurationSpace 0 [] [] []), .live 3 (.objectiveSpace [] []), .live 2 (.configuration 1),
      .live 1 (.evaluation 2 3), .live 1 (.tuner 1 2 [] [])], [5, 4, 3, 2, 1]⟩,
    ⟨[.live 1 .rng, .live 3 (.configurationSpace 0 [] [] []), .live 3 (.objectiveSpace [] []), .live 2 (.configuration 1),
      .live 2 (.evaluation 2 3), .live 1 (.tuner 1 2 [4] [4])], [5, 4, 3, 2, 1]⟩,
    ⟨.of (by decide +kernel), by decide +kernel⟩, fair_of_fairly (by decide +kernel), by decide +kernel, rfl, rfl⟩

/-! ## Samples of a tree space -/

theorem retain_no_err {r : Ref} {h h1 : Heap} {e : Err} {n : Nat} {o : Obj} (hr : get h r = .live n o) : retain r h ≠ .err e h1 := by
  intro q
  unfold retain at q
  rw [hr] at q
  by_cases hn : n < 2 ^ 31 - 1
  · simp only [hn, if_true] at q; cases q
  · simp only [hn, if_false] at q; cases q

theorem retain_live {r : Ref} {h h1 : Heap} {n : Nat} {o : Obj} (hr : get h r = .live n o) (q : retain r h = .ok () h1) :
    get h1 r = .live (n + 1) o := by
  unfold retain at q
  rw [hr] at q
  by_cases hn : n < 2 ^ 31 - 1
  · simp only [hn, if_true] at q; cases q; exact get_set_self _ (lt_of_live hr)
  · simp only [hn, if_false] at q; cases q

theorem get_append_live {h l : Heap} {r : Ref} {n : Nat} {o : Obj} (hr : get h r = .live n o) : get (h ++ l) r = .live n o := by
  have hl := lt_of_live hr
  unfold get at hr ⊢
  rw [List.getD_eq_getElem?_getD] at hr ⊢
  rw [List.getElem?_append_left hl]
  exact hr

/-- The draw that fails, if one does. -/
theorem treeSamples_code {t : Ref} : ∀ (ds : List (Option Err)) (found : List Ref) {h : Heap} {n : Nat} {o : Obj},
    get h t = .live n o → o.kind = .treeSpace →
    (∀ e h', treeSamples t ds found h ≠ .err e h') ∧
    ∀ e got h', treeSamples t ds found h = .ok (some e, got) h' →
      ∃ k suf, ds = List.replicate k none ++ some e :: suf ∧ treeSamples t (List.replicate k none) found h = .ok (none, got) h'
  | [], found, h, n, o, hr, hk => by
    have : treeSamples t [] found h = .ok (none, found) h := bind_ok (check_of_live hr hk)
    rw [this]
    exact ⟨(fun _ _ => nofun), (fun _ _ _ => nofun)⟩
  | some e :: ds, found, h, n, o, hr, hk => by
    have : treeSamples t (some e :: ds) found h = .ok (some e, found) h := bind_ok (check_of_live hr hk)
    rw [this]
    refine ⟨(fun _ _ => nofun), fun e' got h' q => ?_⟩
    cases q
    exact ⟨0, ds, rfl, bind_ok (check_of_live hr hk)⟩
  | none :: ds, found, h, n, o, hr, hk => by
    have made : newTreeConfiguration t h = .ub ∨ ∃ c h1 m, newTreeConfiguration t h = .ok c h1 ∧ get h1 t = .live m o := by
      have : newTreeConfiguration t h = (retain t >>= fun _ => alloc (.treeConfiguration t)) h := bind_ok (check_of_live hr hk)
      rw [this]
      cases hq : retain t h with
      | ub =>
        left
        change Act.bind (retain t) _ h = _
        unfold Act.bind
        rw [hq]
      | err e h1 => exact absurd hq (retain_no_err hr)
      | ok x h1 =>
        right
        exact ⟨h1.length, _, n + 1, bind_ok hq, get_append_live (retain_live hr hq)⟩
    rcases made with hu | ⟨c, h1, m, q, hr1⟩
    · have : treeSamples t (none :: ds) found h = .ub := by
        change Act.bind (newTreeConfiguration t) _ h = _
        unfold Act.bind
        rw [hu]
      rw [this]
      exact ⟨(fun _ _ => nofun), (fun _ _ _ => nofun)⟩
    · have on : ∀ l, treeSamples t (none :: l) found h = treeSamples t l (found ++ [c]) h1 := fun l => bind_ok q
      obtain ⟨i1, i2⟩ := treeSamples_code ds (found ++ [c]) hr1 hk
      rw [on]
      refine ⟨i1, fun e got h' q => ?_⟩
      obtain ⟨k, suf, rfl, q2⟩ := i2 e got h' q
      refine ⟨k + 1, suf, rfl, ?_⟩
      rw [List.replicate_succ, on]
      exact q2

/-- **C105** When `ccs_tree_space_samples` fails, either nothing has changed, or the client owns the configurations drawn before the draw that
failed, exactly as if only these had been asked for. -/
theorem C105_tree_samples_partial {s s' : State} {t : Ref} {ds : List (Option Err)} {e : Err}
    (he : step s (.treeSamples t ds) = some (some e, s')) :
    s' = s ∨ ∃ k suf, ds = List.replicate k none ++ some e :: suf ∧
      step s (.treeSamples t (List.replicate k none)) = some (none, s') := by
  have on : ∀ (l : List (Option Err)), step s (.treeSamples t l) = (match treeSamples t l [] s.heap with
    | .ok (code, got) h => some (code, (⟨h, got ++ s.ext⟩ : State))
    | .err e h => some (some e, ⟨h, s.ext⟩)
    | .ub => none) := fun _ => rfl
  rw [on] at he
  cases hc : check t .treeSpace s.heap with
  | ub =>
    exfalso
    have : treeSamples t ds [] s.heap = .ub := by
      have hb : ∀ {β : Type} (k : Obj → Act β), (check t .treeSpace >>= k) s.heap = .ub := by
        intro β k
        change Act.bind (check t .treeSpace) k s.heap = _
        unfold Act.bind
        rw [hc]
      cases ds with
      | nil => exact hb _
      | cons d ds =>
        cases d with
        | some e => exact hb _
        | none =>
          change Act.bind (newTreeConfiguration t) _ s.heap = _
          unfold Act.bind
          rw [show newTreeConfiguration t s.heap = .ub from hb _]
    rw [this] at he
    cases he
  | err e1 h1 =>
    have := check_err_same hc
    subst this
    have : treeSamples t ds [] s.heap = .err e1 s.heap := by
      cases ds with
      | nil => exact bind_of_err hc
      | cons d ds =>
        cases d with
        | some e => exact bind_of_err hc
        | none => exact bind_of_err (show newTreeConfiguration t s.heap = .err e1 s.heap from bind_of_err hc)
    rw [this] at he
    cases he
    exact .inl rfl
  | ok o h1 =>
    have := check_same hc
    subst this
    right
    have live : ∃ n, get s.heap t = .live n o ∧ o.kind = .treeSpace := by
      obtain ⟨o', h2, q1, q2⟩ := bind_okay hc
      have := load_same q1
      subst this
      by_cases hk : o'.kind = .treeSpace
      · simp only [hk, if_true] at q2
        cases q2
        unfold load at q1
        cases hg : get s.heap t with
        | live n o2 => rw [hg] at q1; cases q1; exact ⟨n, rfl, hk⟩
        | dying => rw [hg] at q1; cases q1
        | freed => rw [hg] at q1; cases q1
      · simp only [hk, if_false] at q2
        cases q2
    obtain ⟨n, hr, hk⟩ := live
    obtain ⟨i1, i2⟩ := treeSamples_code ds [] hr hk
    cases hu : treeSamples t ds [] s.heap with
    | ub => rw [hu] at he; cases he
    | err e' h' => exact absurd hu (i1 e' h')
    | ok x h' =>
      rw [hu] at he
      obtain ⟨code, got⟩ := x
      cases he
      obtain ⟨k, suf, rfl, q⟩ := i2 e got h' hu
      exact ⟨k, suf, rfl, by rw [on, q]⟩

/-- **C105** False for samples of a tree space: the second draw fails, the first configuration is the client's. -/
theorem C105_tree_samples_given (e : Err) : ∃ ops s s', Reached ops s ∧ Fair s (.treeSamples 2 [none, some e]) ∧
    step s (.treeSamples 2 [none, some e]) = some (some e, s') ∧ get s.heap 2 = .live 1 (.treeSpace 1 0) ∧ s.ext = [2, 0] ∧
    get s'.heap 2 = .live 2 (.treeSpace 1 0) ∧ s'.ext = [3, 2, 0] :=
  ⟨[.leaf (.tree 0) none, .treeSpace 0],
    ⟨[.live 2 (.tree [] none), .live 1 .rng, .live 1 (.treeSpace 1 0)], [2, 0]⟩,
    ⟨[.live 2 (.tree [] none), .live 1 .rng, .live 2 (.treeSpace 1 0), .live 1 (.treeConfiguration 2)], [3, 2, 0]⟩,
    ⟨.of (by decide +kernel), by decide +kernel⟩, fair_of_fairly rfl, rfl, rfl, rfl, rfl, rfl⟩

/-! ## Releases -/

/-- The same object, if the user's destructor were to succeed. -/
def Obj.willing : Obj → Obj
  | .userTuner a b _ => .userTuner a b none
  | .userFeaturesTuner a b c _ => .userFeaturesTuner a b c none
  | .dynamicTreeSpace a b _ => .dynamicTreeSpace a b none
  | .userTreeTuner a b _ => .userTreeTuner a b none
  | o => o

theorem drain_free_last {r : Ref} : ∀ (fuel : Nat) (h : Heap) (ts : List Task) (h2 : Heap), drain fuel h (ts ++ [.free r]) = some h2 →
    ∃ h1, drain fuel h ts = some h1 ∧ get h1 r ≠ .freed ∧ h2 = h1.set r .freed
  | 0, h, [], h2, q => nomatch q
  | 0, h, t :: ts, h2, q => nomatch q
  | fuel + 1, h, [], h2, q => by
    rw [List.nil_append, drain] at q
    cases hg : get h r with
    | live n o =>
      rw [hg] at q
      have : drain fuel (h.set r .freed) [] = some (h.set r .freed) := by unfold drain; rfl
      dsimp only at q
      rw [this] at q
      exact ⟨h, by unfold drain; rfl, by rw [hg]; exact nofun, (Option.some.inj q).symm⟩
    | dying =>
      rw [hg] at q
      have : drain fuel (h.set r .freed) [] = some (h.set r .freed) := by unfold drain; rfl
      dsimp only at q
      rw [this] at q
      exact ⟨h, by unfold drain; rfl, by rw [hg]; exact nofun, (Option.some.inj q).symm⟩
    | freed => rw [hg] at q; cases q
  | fuel + 1, h, .release x :: ts, h2, q => by
    rw [List.cons_append, drain] at q
    rw [drain]
    cases hg : get h x with
    | live n o =>
      rw [hg] at q
      dsimp only at q ⊢
      by_cases hn : n ≤ 1
      · rw [if_pos hn] at q ⊢
        rw [← List.append_assoc] at q
        exact drain_free_last fuel _ _ _ q
      · rw [if_neg hn] at q ⊢
        exact drain_free_last fuel _ _ _ q
    | dying => rw [hg] at q; exact drain_free_last fuel _ _ _ q
    | freed => rw [hg] at q; cases q
  | fuel + 1, h, .detach x :: ts, h2, q => by
    rw [List.cons_append, drain] at q
    rw [drain]
    cases hg : get h x with
    | live n o =>
      rw [hg] at q
      cases o with
      | tree cs p => exact drain_free_last fuel _ _ _ q
      | _ => cases q
    | dying => rw [hg] at q; exact drain_free_last fuel _ _ _ q
    | freed => rw [hg] at q; cases q
  | fuel + 1, h, .free x :: ts, h2, q => by
    rw [List.cons_append, drain] at q
    rw [drain]
    cases hg : get h x with
    | live n o => rw [hg] at q; exact drain_free_last fuel _ _ _ q
    | dying => rw [hg] at q; exact drain_free_last fuel _ _ _ q
    | freed => rw [hg] at q; cases q

theorem willing_del (o : Obj) : (Obj.willing o).del = o.del := by cases o <;> rfl

theorem willing_delRes (o : Obj) : (Obj.willing o).delRes = none := by cases o <;> rfl

/-- **C105** When `ccs_release_object` fails after a fair program, it was the last reference on an object with a destructor of the user, which
gave that error.  The client has given up the reference all the same, the object is neither freed nor usable, and everything else is as if
the destructor had succeeded: what the object held is released. -/
theorem C105_release_partial {ops : List Op} {s s' : State} (h : Reached ops s) {r : Ref} (fair : Fair s (.release r)) {e : Err}
    (he : step s (.release r) = some (some e, s')) :
    ∃ o s1, get s.heap r = .live 1 o ∧ o.delRes = some e ∧ s'.ext = s.ext.erase r ∧ get s'.heap r = .dying ∧
      step ⟨s.heap.set r (.live 1 (Obj.willing o)), s.ext⟩ (.release r) = some (none, s1) ∧
      s1.ext = s'.ext ∧ get s1.heap r = .freed ∧ ∀ x, x ≠ r → get s1.heap x = get s'.heap x := by
  obtain ⟨lost, f, -⟩ := reached_full h
  have hm : r ∈ s.ext := fair.owned r (by simp [Op.owned])
  have f' : Full s.heap (r :: (s.ext.erase r ++ lost)) := f.perm fun x => by
    have := List.perm_cons_erase hm
    rw [← List.cons_append, List.count_append, List.count_append, this.count_eq]
  have on : ∀ (z : State), step z (.release r) = (match unit (release r) z.heap with
    | .ok (code, got) h => some (code, (⟨h, got ++ z.ext.erase r⟩ : State))
    | .err e h => some (some e, ⟨h, z.ext.erase r⟩)
    | .ub => none) := fun _ => rfl
  rw [on] at he
  cases hu : unit (release r) s.heap with
  | ub => rw [hu] at he; cases he
  | ok x h' => rw [hu, unit_code hu] at he; cases he
  | err e' h' =>
    rw [hu] at he
    cases he
    have q := of_unit_err hu
    have hc := f'.counted r
    cases hg : get s.heap r with
    | dying => rw [hg] at hc; simp at hc
    | freed => rw [hg] at hc; simp at hc
    | live n o =>
      rw [hg] at hc
      have hlt := lt_of_live hg
      unfold release at q
      rw [hg] at q
      dsimp only at q
      cases hd : drain (steps s.heap) s.heap [.release r] with
      | none => rw [hd] at q; cases q
      | some h1 =>
        rw [hd] at q
        dsimp only at q
        by_cases hn : n ≤ 1
        · have n1 : n = 1 := by have := hc.1; omega
          subst n1
          rw [if_pos hn] at q
          cases hdr : o.delRes with
          | none => rw [hdr] at q; cases q
          | some e2 =>
            rw [hdr] at q
            cases q
            -- the tasks of the destructor, with and without the final `free`
            have hd' : drain ((s.heap.map Cell.work).sum) (s.heap.set r .dying) o.del = some h' := by
              unfold steps at hd
              rw [drain, hg] at hd
              dsimp only at hd
              rw [if_pos hn, hdr] at hd
              simpa using hd
            have dur := f'.during.destroy hg hn (fr := [.free r]) (.inr rfl)
            rw [List.append_nil] at dur
            have hw := work_set .dying hlt
            rw [hg] at hw
            simp only [Cell.work] at hw
            obtain ⟨h2, e2', -, -⟩ := drain_during ((s.heap.map Cell.work).sum) _ _ _ dur (by
              simp only [List.length_append, List.length_cons, List.length_nil]
              unfold work at hw ⊢
              omega)
            obtain ⟨h1', e1', hnf, rfl⟩ := drain_free_last _ _ _ _ e2'
            rw [hd'] at e1'
            cases e1'
            obtain ⟨hlen, hfr⟩ := drain_framed _ _ _ _ hd'
            have hlt' : r < h'.length := by rw [hlen]; simpa using hlt
            have hdy : get h' r = .dying := by
              cases hx : get h' r with
              | dying => rfl
              | freed => exact absurd hx hnf
              | live m o2 =>
                obtain ⟨m0, o0, h0, -⟩ := hfr r m o2 hx
                rw [get_set_self _ hlt] at h0
                cases h0
            have rel : release r (s.heap.set r (.live 1 (Obj.willing o))) = .ok () (h'.set r .freed) := by
              unfold release
              rw [get_set_self _ hlt]
              dsimp only
              have st : steps (s.heap.set r (.live 1 (Obj.willing o))) = (s.heap.map Cell.work).sum + 1 := by
                have hw2 := work_set (.live 1 (Obj.willing o)) hlt
                rw [hg] at hw2
                simp only [Cell.work, willing_del] at hw2
                unfold work at hw2
                unfold steps
                omega
              rw [st, drain, get_set_self _ hlt]
              dsimp only
              rw [if_pos hn, willing_del, willing_delRes, List.set_set]
              simp only [List.append_nil]
              rw [e2']
              dsimp only
              rw [if_pos hn]
            refine ⟨o, ⟨h'.set r .freed, s.ext.erase r⟩, rfl, hdr, rfl, hdy, ?_, rfl, get_set_self _ hlt', fun x hx => get_set_ne _ hx⟩
            rw [on, unit_ok rel]
            rfl
        · rw [if_neg hn] at q
          cases q

/-- **C105** A release that fails: a tuner of the user, with the last reference on its configuration space. -/
example (e : Err) : ∃ ops s s', Reached ops s ∧ Fair s (.release 3) ∧ step s (.release 3) = some (some e, s') :=
  ⟨[.configurationSpace, .leaf .objectiveSpace none, .userTuner 1 2 (some e), .release 1],
    ⟨[.live 1 .rng, .live 1 (.configurationSpace 0 [] [] []), .live 2 (.objectiveSpace [] []), .live 1 (.userTuner 1 2 (some e))], [3, 2]⟩,
    ⟨[.freed, .freed, .live 1 (.objectiveSpace [] []), .dying], [2]⟩,
    ⟨.of rfl, rfl⟩, fair_of_fairly rfl, rfl⟩

end CCS.Own.Props
