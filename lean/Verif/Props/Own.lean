import Verif.Lemmas.OwnRun

/-!
Theorems about ownership: programs of any length over all the kinds of objects together.

`FairRun` is what the client respects (`Verif/Spec/Own.lean`): it passes objects it can reach, releases
what it owns.
-/

namespace CCS.Own.Props

open CCS

/-- After a fair program, from the invariant. -/
theorem reached_full {ops : List Op} {s : State} (h : Reached ops s) :
    ∃ lost, Full s.heap (s.ext ++ lost) ∧ lost.length ≤ blunders .start ops := by
  obtain ⟨s', new, hr, f, hl⟩ := run_full ops .start [] full_nil h.1
  rw [h.2] at hr
  cases hr
  exact ⟨new, by simpa using f, hl⟩

/-! ## A program with every kind of object -/

/-- Creates an object of every kind, shares some, tells, suggests, and releases everything in an order that
is neither that of creation nor its reverse. -/
def tour : List Op :=
  [ .leaf .parameter none, .leaf .parameter none, .configurationSpace,            -- 0 1, 2 3
    .addParameter 3 0 none none none, .addParameter 3 1 none none none,            -- 4, 5
    .leaf .distribution none, .leaf .distribution none, .composite [6, 7] none,     -- 6 7 8
    .setDistribution 3 8 [0, 1] none (fun _ => none),
    .leaf .literal none, .var 0, .expression [.object 9, .object 10, .object 1, .value none] none, -- 9 10 (11 12 13)
    .addClause 3 13 none none none,                                               -- 14
    .setCondition 3 1 10 none,
    .leaf .objectiveSpace none, .leaf .parameter none, .addObjectiveParameter 15 16 none, -- 15 16
    .var 16, .addObjectives 15 [(17, none), (17, none)],                           -- 17
    .sample 3 .hit, .evaluation 15 18 none none, .tuner 3 15,                      -- 18 19 20
    .tell (fun _ _ => .better) 20 [(19, true), (19, true)],
    .suggest 20 (some 0) [], .samples 3 2 [.miss, .hit, .hit],                     -- 21 22
    .leaf .featuresSpace none, .addFeature 23 1 none, .features 23 none none,      -- 23 24
    .featuresEvaluation 15 18 24 none none, .featuresTuner 3 15 23,               -- 25 26
    .tell (fun _ _ => .incomparable) 26 [(25, true)],
    .userTuner 3 15 none, .userFeaturesTuner 3 15 23 none,                        -- 27 28
    .leaf (.tree 2) none, .leaf (.tree 1) none, .setChild 29 0 30,                -- 29 30
    .treeSpace 29, .dynamicTreeSpace 29 none, .dynamicChild 29 1 (.fresh 0),       -- 31 32, 33 34, 35
    .treeConfiguration 34, .treeSamples 32 [none], .treeEvaluation 15 36 none none, -- 36 37 38
    .treeTuner 32 15, .tell (fun _ _ => .worse) 39 [(38, true)], .userTreeTuner 32 15 none, -- 39 40
    .leaf .map none, .mapSet 41 (.obj 20) (.obj 38), .mapSet 41 (.obj 20) (.other 1), .mapDel 41 (.obj 20), -- 41
    .leaf .rng none, .setRng 3 42, .setTreeRng 32 42, .retain 3 ]                 -- 42

def tourState : State := (run .start tour).getD .start

/-- The program is fair, ends, and refuses nothing. -/
theorem tour_reached : Reached tour tourState := by
  refine ⟨.of ?_, ?_⟩ <;> decide +kernel

example : tourState.heap.length = 43 ∧ blunders .start tour = 0 := by decide +kernel

/-- Everything the client owns after `tour`, released. -/
def leave : List Op := (tourState.ext.filter (· % 2 = 0) ++ tourState.ext.filter (· % 2 = 1)).map .release

theorem leave_reached : Reached (tour ++ leave) ((run .start (tour ++ leave)).getD .start) := by
  refine ⟨.of ?_, ?_⟩ <;> decide +kernel

/-! ## C103 -/

/-- **C103** A client that passes objects it can reach and releases what it owns never causes the use of
freed memory, a double free or an overflowing count, whatever the program.  At any time the count of every
object is the number of references on it: the client's, those stored in objects, and those lost by calls
of a few kinds when they fail. -/
theorem C103_safe (ops : List Op) (fair : FairRun .start ops) :
    ∃ s lost, run .start ops = some s ∧ Counted s.heap (s.ext ++ lost) ∧
      lost.length ≤ blunders .start ops := by
  obtain ⟨s, new, hr, f, hl⟩ := run_full ops .start [] full_nil fair
  exact ⟨s, new, hr, by simpa using f.counted, hl⟩

/-- **C103** After any fair program, any further fair call is defined. -/
theorem C103_next {ops : List Op} {s : State} (h : Reached ops s) {op : Op} (fair : Fair s op) :
    ∃ code s', step s op = some (code, s') := by
  obtain ⟨lost, f, -⟩ := reached_full h
  obtain ⟨code, s', -, hs, -⟩ := step_full f fair
  exact ⟨code, s', hs⟩

/-- **C103** What a client can reach exists, and every field of an object that exists refers to an object
that exists, of the kind the field is for. -/
theorem C103_reachable {ops : List Op} {s : State} (h : Reached ops s) :
    (∀ r, Reach s.heap s.ext r → Alive s.heap r) ∧
    ∀ r n o, get s.heap r = .live n o →
      (∀ x ∈ o.holds, Alive s.heap x) ∧
      ∀ x k, (x, k) ∈ o.wants → ∃ m o', get s.heap x = .live m o' ∧ o'.kind = k := by
  obtain ⟨lost, f, -⟩ := reached_full h
  refine ⟨fun r hr => alive_of_reach f (hr.mono (by simp +contextual)), fun r n o hr =>
    ⟨fun x hx => alive_of_holds f hr hx, fun x k hx => ?_⟩⟩
  obtain ⟨m, o', ho⟩ := alive_of_holds f hr (mem_holds_of_wants hx)
  exact ⟨m, o', ho, f.typed r n o hr x k hx m o' ho⟩

/-- **C103** References that do not own what they point to never dangle: the optima of a tuner exist and are
evaluations of its kind, the parent of a tree exists and has it for child. -/
theorem C103_borrowed {ops : List Op} {s : State} (h : Reached ops s) :
    (∀ r n o e, get s.heap r = .live n o → e ∈ o.optima →
      ∃ m o', get s.heap e = .live m o' ∧ o.takes = some o'.kind) ∧
    ∀ c n cs t, get s.heap c = .live n (.tree cs (some t)) →
      ∃ m cs' p, get s.heap t = .live m (.tree cs' p) ∧ some c ∈ cs' := by
  obtain ⟨lost, f, -⟩ := reached_full h
  refine ⟨fun r n o e hr he => ?_, f.linked.up⟩
  have hh := f.borrowed r n o hr e he
  obtain ⟨k, hk, hw⟩ := wants_of_history hh
  obtain ⟨m, o', ho⟩ := alive_of_holds f hr (mem_holds_of_wants hw)
  exact ⟨m, o', ho, by rw [hk, f.typed r n o hr e k hw m o' ho]⟩

/-- **C103** `tour` meets the hypotheses, and still does when everything is released. -/
example : (∃ s, Reached tour s) ∧ ∃ s, Reached (tour ++ leave) s := ⟨⟨_, tour_reached⟩, ⟨_, leave_reached⟩⟩

/-- A further call on what `tour` leaves. -/
example : Fair tourState (.suggest 20 (some 0) []) := fair_of_fairly (by decide +kernel)

/-! ## C104 -/

/-- **C104** Nothing is leaked by programs: an object that exists can be reached from a reference of the
client, from one lost in a call that failed, or from a map that contains itself. -/
theorem C104_no_garbage_partial {ops : List Op} {s : State} (h : Reached ops s) :
    ∃ lost, lost.length ≤ blunders .start ops ∧
      ∀ r, Alive s.heap r → Reach s.heap (s.ext ++ lost) r ∨
        ∃ m, Contains s.heap m m ∧ Reach s.heap [m] r := by
  obtain ⟨lost, f, hl⟩ := reached_full h
  exact ⟨lost, hl, fun r hr => no_garbage f hr⟩

/-- **C104** If no call of the few kinds failed, no map contains itself and no destructor of the user fails,
memory is exactly what the client can reach: an object is freed at once when its last
reference goes. -/
theorem C104_freed_partial {ops : List Op} {s : State} (h : Reached ops s) (nb : blunders .start ops = 0)
    (nu : ∀ op ∈ ops, op.userDel = none) (nc : ∀ m, ¬ Contains s.heap m m) (r : Ref) :
    (Reach s.heap s.ext r → Alive s.heap r) ∧ (¬ Reach s.heap s.ext r → get s.heap r = .freed) := by
  refine ⟨(C103_reachable h).1 r, fun hr => ?_⟩
  obtain ⟨lost, hl, g⟩ := C104_no_garbage_partial h
  have : lost = [] := List.eq_nil_of_length_eq_zero (by omega)
  subst this
  have t : Tidy s.heap := run_tidy ops .start s
    ⟨fun r h => by simp [State.start, get] at h, fun r n o h => by simp [State.start, get] at h⟩ nu h.2
  cases hc : get s.heap r with
  | freed => rfl
  | dying => exact absurd hc (t.1 r)
  | live n o =>
    rcases g r ⟨n, o, hc⟩ with h1 | ⟨m, hm, -⟩
    · exact absurd (by simpa using h1) hr
    · exact absurd hm (nc m)

/-- **C104** In particular nothing is left when the client has released everything, in whatever
order. -/
theorem C104_all_released_partial {ops : List Op} {s : State} (h : Reached ops s) (nb : blunders .start ops = 0)
    (nu : ∀ op ∈ ops, op.userDel = none) (nc : ∀ m, ¬ Contains s.heap m m) (he : s.ext = []) (r : Ref) :
    get s.heap r = .freed := by
  refine (C104_freed_partial h nb nu nc r).2 fun hr => ?_
  rw [he] at hr
  have : ∀ x, ¬ Reach s.heap [] x := by
    intro x hx
    induction hx with
    | own h => exact nomatch h
    | field _ _ _ ih => exact ih
  exact this r hr

/-- Maps without maps do not contain themselves. -/
theorem plain_maps {h : Heap} (p : ∀ r n es, get h r = .live n (.map es) →
    ∀ b ∈ (Obj.map es).holds, ∀ m es', get h b ≠ .live m (.map es')) (m : Ref) : ¬ Contains h m m := by
  have : ∀ a b, ¬ Contains h a b := by
    intro a b hab
    induction hab with
    | entry ha hb hm => exact p _ _ _ ha _ hb _ _ hm
    | trans _ _ ih _ => exact ih
  exact this m m

/-- **C104** Releasing in some order all that `tour` created frees all of it: the heap computed and the
theorem agree. -/
example : ((run .start (tour ++ leave)).getD .start).ext = [] ∧
    (tour ++ leave).all (fun op => op.userDel.isNone) ∧ blunders .start (tour ++ leave) = 0 ∧
    ((run .start (tour ++ leave)).getD .start).heap.length = 43 ∧
    ((run .start (tour ++ leave)).getD .start).heap.all (· = .freed) := by decide +kernel

/-- **C104** False for maps: a map put into itself is never freed although the client has released all
it had. -/
theorem C104_cycle_leaks : ∃ ops s, Reached ops s ∧ blunders .start ops = 0 ∧
    (∀ op ∈ ops, op.userDel = none) ∧ s.ext = [] ∧ Alive s.heap 0 := by
  refine ⟨[.leaf .map none, .mapSet 0 (.other 0) (.obj 0), .release 0],
    ⟨[.live 1 (.map [(.other 0, .obj 0)])], []⟩, ⟨.of (by decide +kernel), by decide +kernel⟩,
    by decide +kernel, ?_, rfl, ⟨_, _, rfl⟩⟩
  intro op ho
  simp only [List.mem_cons, List.not_mem_nil, or_false] at ho
  rcases ho with rfl | rfl | rfl <;> rfl

/-- **C104** False when a destructor of the user fails: the objects it held are released but the tuner is
never freed, and cannot be released again. -/
theorem C104_failed_del_leaks (e : Err) : ∃ ops s, Reached ops s ∧ blunders .start ops = 0 ∧ s.ext = [2] ∧
    (∀ m, ¬ Contains s.heap m m) ∧ get s.heap 3 = .dying ∧
    step s (.release 3) = some (some .invalidObject, s) := by
  refine ⟨[.configurationSpace, .leaf .objectiveSpace none, .userTuner 1 2 (some e), .release 1, .release 3],
    ⟨[.freed, .freed, .live 1 (.objectiveSpace [] []), .dying], [2]⟩,
    ⟨.of rfl, rfl⟩, rfl, rfl, plain_maps ?_, rfl, rfl⟩
  intro r n es h
  match r with
  | 0 | 1 | 2 | 3 => exact nomatch h
  | r + 4 => simp [get] at h

/-! ## C105 -/

/-- **C105** A call that is refused changes nothing: every object is as it was, with the same count, what was
created meanwhile is freed, and the client owns what it did.  Proved for all calls except those that
may lose a reference, and those that handle several objects in turn. -/
theorem C105_refused_partial {ops : List Op} {s s' : State} (h : Reached ops s) {op : Op} (fair : Fair s op)
    {e : Err} (he : step s op = some (some e, s')) (hc : ¬ op.careless) (hg : ¬ op.gradual) :
    s'.ext = s.ext ∧ ∀ r, get s'.heap r = get s.heap r := by
  obtain ⟨lost, f, -⟩ := reached_full h
  obtain ⟨code, s1, -, hs, -, -, -, hu⟩ := step_full f fair
  rw [he] at hs
  cases hs
  obtain ⟨h1, h2⟩ := hu (by simp) hc hg
  exact ⟨h2, h1.2⟩

/-- **C105** An expression refused at its last operand, after variables and literals were created and
expressions retained; a distribution refused at the second parameter left without one. -/
example :
    let op := Op.expression [.object 9, .object 1, .value none, .value (some .invalidValue)] none
    let op' := Op.setDistribution 3 6 [0] none fun _ => some .outOfMemory
    Fair tourState op ∧ Fair tourState op' ∧
    (step tourState op).map (fun x => (x.1, x.2.heap.length)) = some (some .invalidValue, 45) ∧
    (step tourState op').map (·.1) = some (some .outOfMemory) :=
  ⟨fair_of_fairly (by decide +kernel), fair_of_fairly (by decide +kernel), by decide +kernel, by decide +kernel⟩

/-- **C105** False for configurations: if the values are refused, the space gets a reference nobody has.  It
is never freed. -/
theorem C105_configuration_leaks (e : Err) : ∃ ops s, Reached ops s ∧ s.ext = [] ∧ Alive s.heap 1 ∧
    ∃ before after, Reached [.configurationSpace] before ∧
      step before (.configuration 1 none (some e)) = some (some e, after) ∧
      get before.heap 1 = .live 1 (.configurationSpace 0 [] [] []) ∧
      get after.heap 1 = .live 2 (.configurationSpace 0 [] [] []) ∧ after.ext = before.ext :=
  ⟨[.configurationSpace, .configuration 1 none (some e), .release 1],
    ⟨[.live 1 .rng, .live 1 (.configurationSpace 0 [] [] [])], []⟩, ⟨.of rfl, rfl⟩, rfl, ⟨_, _, rfl⟩,
    ⟨[.live 1 .rng, .live 1 (.configurationSpace 0 [] [] [])], [1]⟩,
    ⟨[.live 1 .rng, .live 2 (.configurationSpace 0 [] [] [])], [1]⟩, ⟨.of rfl, rfl⟩, rfl, rfl, rfl, rfl⟩

/-- **C105** False for several samples: when the draws run out, the configuration being filled, and with it the
space, is never freed. -/
theorem C105_samples_leak : ∃ ops s, Reached ops s ∧ s.ext = [] ∧
    get s.heap 2 = .live 1 (.configuration 1) ∧ Alive s.heap 1 :=
  ⟨[.configurationSpace, .samples 1 1 (List.replicate 100 .miss), .release 1],
    ⟨[.live 1 .rng, .live 1 (.configurationSpace 0 [] [] []), .live 1 (.configuration 1)], []⟩,
    ⟨.of (by decide +kernel), by decide +kernel⟩, rfl, rfl, ⟨_, _, rfl⟩⟩

/-- **C105** False for dynamic trees: a tree given by the user that is in another tree already is refused,
and the reference handed over is lost. -/
theorem C105_dynamic_child_leaks : ∃ ops s, Reached ops s ∧ s.ext = [] ∧ Alive s.heap 2 ∧
    ∃ i t before after, step before (.dynamicChild t i (.gives 2)) = some (some .invalidTree, after) :=
  ⟨[.leaf (.tree 1) none, .leaf (.tree 1) none, .leaf (.tree 0) none, .setChild 0 0 2,
      .dynamicChild 1 0 (.gives 2), .release 0, .release 1],
    ⟨[.freed, .freed, .live 1 (.tree [] none)], []⟩, ⟨.of (by decide +kernel), by decide +kernel⟩,
    rfl, ⟨_, _, rfl⟩, 0, 1,
    ⟨[.live 1 (.tree [some 2] none), .live 1 (.tree [none] none), .live 2 (.tree [] (some 0))], [2, 1, 0]⟩,
    ⟨[.live 1 (.tree [some 2] none), .live 1 (.tree [none] none), .live 2 (.tree [] (some 0))], [1, 0]⟩,
    by decide +kernel⟩

/-- **C105** Even then: a call that fails loses at most one reference, and only if it is of these kinds. -/
theorem C105_at_most_one {ops : List Op} {s s' : State} (h : Reached ops s) {op : Op} (fair : Fair s op)
    {code : Option Err} (he : step s op = some (code, s')) :
    ∃ lost new, Counted s.heap (s.ext ++ lost) ∧ Counted s'.heap (s'.ext ++ (new ++ lost)) ∧ new.length ≤ 1 ∧
      (new ≠ [] → op.careless ∧ code ≠ none) := by
  obtain ⟨lost, f, -⟩ := reached_full h
  obtain ⟨code', s1, new, hs, f1, hl, hc, -⟩ := step_full f fair
  rw [he] at hs
  cases hs
  exact ⟨lost, new, f.counted, f1.counted, hl, hc⟩

/-! ## C106 -/

/-- **C106** A call modifies the objects it is meant to modify and no other: any other object that the client
can still reach has the same fields, except that a tree loses its parent when the parent goes. -/
theorem C106_frame {ops : List Op} {s s' : State} (h : Reached ops s) {op : Op} (fair : Fair s op)
    {code : Option Err} (he : step s op = some (code, s')) {r : Ref} (hr : Reach s'.heap s'.ext r)
    (old : r < s.heap.length) (ht : r ∉ op.targets) :
    ∃ m n o o', get s.heap r = .live m o ∧ get s'.heap r = .live n o' ∧
      (o' = o ∨ ∃ cs t, o = .tree cs (some t) ∧ o' = .tree cs none ∧ (¬ Alive s'.heap t ∨ t ∈ op.targets)) := by
  obtain ⟨lost, f, -⟩ := reached_full h
  obtain ⟨code', s1, new, hs, f1, -⟩ := step_full f fair
  rw [he] at hs
  cases hs
  obtain ⟨n, o', h'⟩ := alive_of_reach f1 (hr.mono (by simp +contextual))
  obtain ⟨m, o, h0, hsame⟩ := (step_framed he).2 r old ht n o' h'
  refine ⟨m, n, o, o', h0, h', ?_⟩
  rcases hsame with rfl | ⟨cs, p, rfl, rfl⟩
  · exact .inl rfl
  · cases p with
    | none => exact .inl rfl
    | some t =>
      refine .inr ⟨cs, t, rfl, rfl, ?_⟩
      by_cases htt : t ∈ op.targets
      · exact .inr htt
      · refine .inl fun ⟨n1, o1, h1⟩ => ?_
        obtain ⟨m2, cs2, p2, h2, hmem⟩ := f.linked.up r m cs t h0
        obtain ⟨m3, o3, h3, hs3⟩ := (step_framed he).2 t (lt_of_live h2) htt n1 o1 h1
        rw [h2] at h3
        cases h3
        rcases hs3 with rfl | ⟨cs4, p4, e4, rfl⟩
        · exact nomatch f1.linked.down t n1 cs2 p2 r n cs none h1 hmem h'
        · cases e4
          exact nomatch f1.linked.down t n1 cs2 none r n cs none h1 hmem h'

/-- **C106** Handles are not used again: what a call creates is new. -/
theorem C106_fresh {s s' : State} {op : Op} {code : Option Err} (he : step s op = some (code, s')) {r : Ref}
    (old : r < s.heap.length) (ht : r ∉ op.targets) (dead : ¬ Alive s.heap r) : ¬ Alive s'.heap r := by
  rintro ⟨n, o, h'⟩
  obtain ⟨m, o0, h0, -⟩ := (step_framed he).2 r old ht n o h'
  exact dead ⟨m, o0, h0⟩

/-- **C106** Putting a value into a map leaves the tuner of `tour` alone. -/
example : Fair tourState (.mapSet 41 (.obj 20) (.other 5)) ∧ 20 ∉ (Op.mapSet 41 (.obj 20) (.other 5)).targets ∧
    (∃ code s', step tourState (.mapSet 41 (.obj 20) (.other 5)) = some (code, s') ∧ Reach s'.heap s'.ext 20) := by
  refine ⟨fair_of_fairly (by decide +kernel), by simp [Op.targets], ?_⟩
  have : (step tourState (.mapSet 41 (.obj 20) (.other 5))).map (fun x => decide (20 ∈ x.2.ext)) = some true := by
    decide +kernel
  obtain ⟨⟨code, s'⟩, h1, h2⟩ := Option.map_eq_some_iff.1 this
  exact ⟨code, s', h1, .own (by simpa using h2)⟩

end CCS.Own.Props
