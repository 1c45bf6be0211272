import Verif.Lemmas.UserTuner
import Verif.Props.RunWire
import Verif.Props.TreeRunWire

/-! Theorems about user defined tuners. -/

namespace CCS.Props

open Spec

variable {τ : Type}

/-! ## C99 -/

/-- **C99** A user defined tuner is created exactly when it has a name, spaces, a place for the result and the callbacks that
must be given.  Otherwise nothing is created, and the answer is an error. -/
theorem C99_created (name : Option Bytes) (space features objectives ret : Bool) (vector : Option (UserVector τ)) (pointer : BitVec 64) :
    (((∃ t, createUserTuner name space features objectives ret vector pointer = .ok t) ↔
      name.isSome ∧ space ∧ features ∧ objectives ∧ ret ∧ ∃ v, vector = some v ∧ Complete v)) ∧
    (createUserTuner name space features objectives ret vector pointer = .err .invalidObject ↔
      name.isSome ∧ ¬ (space ∧ features ∧ objectives)) ∧
    (createUserTuner name space features objectives ret vector pointer = .err .invalidValue ↔
      name = none ∨ (space ∧ features ∧ objectives ∧ ¬ (ret ∧ ∃ v, vector = some v ∧ Complete v))) := by
  cases name with
  | none => simp [createUserTuner, checkPtr]
  | some name =>
    cases space with
    | false => simp [createUserTuner, checkPtr, refute]
    | true =>
      cases features with
      | false => simp [createUserTuner, checkPtr, refute]
      | true =>
        cases objectives with
        | false => simp [createUserTuner, checkPtr, refute]
        | true =>
          cases ret with
          | false => simp [createUserTuner, checkPtr, refute]
          | true =>
            cases vector with
            | none => simp [createUserTuner, checkPtr]
            | some v =>
              by_cases hv : Complete v
              · obtain ⟨t, h, -⟩ := create_complete hv name pointer
                rw [h]
                simp [hv]
              · rw [create_incomplete hv]
                simp [hv]

theorem create_wraps {name : Option Bytes} {space features objectives ret : Bool} {v : UserVector τ} {pointer : BitVec 64} {t : UserTuner τ}
    (h : createUserTuner name space features objectives ret (some v) pointer = .ok t) :
    Wraps v t ∧ name = some t.name ∧ t.pointer = pointer := by
  obtain ⟨h1, h2, h3, h4, h5, w, hw, hc⟩ := (C99_created name space features objectives ret (some v) pointer).1.mp ⟨t, h⟩
  obtain rfl := Option.some.inj hw
  obtain ⟨n, rfl⟩ := Option.isSome_iff_exists.mp h1
  subst h2 h3 h4 h5
  obtain ⟨t', e, h6, h7, h8⟩ := create_complete hc n pointer
  rw [h] at e
  obtain rfl := Out.ok.inj e
  exact ⟨h6, by rw [h7], h8⟩

section
variable {name : Option Bytes} {space features objectives ret : Bool} {v : UserVector τ} {pointer : BitVec 64}

/-- **C99** A call with right arguments applies the callback for it to the state of the user, with the arguments of the call, and
answers what the callback answers.  Any other call leaves the state of the user as it was and answers an error for a reason that
holds, unless checking the features is itself undefined. -/
theorem C99_call {t : UserTuner τ} (ht : createUserTuner name space features objectives ret (some v) pointer = .ok t)
    (w : Option FeatureView) (c : TunerCall) (s : τ) :
    (Reaches w v c → Does v s (eventOf w c) (callTuner w (some t) c s)) ∧
    (¬ Reaches w v c → (∃ e, Refusal w v c e ∧ callTuner w (some t) c s = (s, .err e)) ∨
      (callTuner w (some t) c s = (s, .ub) ∧ ∃ x, w = some x ∧ ∃ f, x.valid f = .ub)) ∧
    callTuner w none c s = (s, .err .invalidObject) :=
  ⟨fun h => call_reaches (create_wraps ht).1 h s, fun h => call_refused (create_wraps ht).1 h s, rfl⟩

theorem reaches_recording {w : Option FeatureView} {c : TunerCall} : Reaches w (recording v) c ↔ Reaches w v c := by
  unfold Reaches recording
  simp

open Classical in
/-- **C99** Over any sequence of calls, the callbacks that ran are those of the calls with right arguments, one for each, in
order, with the arguments of the calls.  They ran on the states, and gave the answers, of the callbacks that do not take notes. -/
theorem C99_trace {t : UserTuner (τ × List UserEvent)} {t' : UserTuner τ}
    (ht : createUserTuner name space features objectives ret (some (recording v)) pointer = .ok t)
    (ht' : createUserTuner name space features objectives ret (some v) pointer = .ok t')
    (w : Option FeatureView) : ∀ (calls : List TunerCall) (s : τ) (log : List UserEvent),
    (callsTuner w t calls (s, log)).1.2 = log ++ (calls.filter fun c => decide (Reaches w v c)).map (eventOf w) ∧
    (callsTuner w t calls (s, log)).1.1 = (callsTuner w t' calls s).1 ∧
    (callsTuner w t calls (s, log)).2 = (callsTuner w t' calls s).2
  | [], s, log => by simp [callsTuner]
  | c :: cs, s, log => by
    have hw := (create_wraps ht).1
    have hw' := (create_wraps ht').1
    have key : (callTuner w (some t) c (s, log)).1.2 = log ++ (if Reaches w v c then [eventOf w c] else []) ∧
        (callTuner w (some t) c (s, log)).1.1 = (callTuner w (some t') c s).1 ∧
        (callTuner w (some t) c (s, log)).2 = (callTuner w (some t') c s).2 := by
      by_cases hr : RightCall w c
      · have hc := checkCall_right.mpr hr
        unfold callTuner
        dsimp only
        rw [hc]
        dsimp only
        cases c with
        | ask f num array count =>
          have e := hw.ask
          rw [recording, hw'.ask] at e
          rw [UserTuner.serve, UserTuner.serve, ← Option.some.inj e, if_pos ⟨hr, fun _ _ h => nomatch h⟩]
          exact ⟨rfl, rfl, rfl⟩
        | tell es num =>
          have e := hw.tell
          rw [recording, hw'.tell] at e
          rw [UserTuner.serve, UserTuner.serve, ← Option.some.inj e, if_pos ⟨hr, fun _ _ h => nomatch h⟩]
          exact ⟨rfl, rfl, rfl⟩
        | getOptima f num array count =>
          have e := hw.getOptima
          rw [recording, hw'.getOptima] at e
          rw [UserTuner.serve, UserTuner.serve, ← Option.some.inj e, if_pos ⟨hr, fun _ _ h => nomatch h⟩]
          exact ⟨rfl, rfl, rfl⟩
        | getHistory f num array count =>
          have e := hw.getHistory
          rw [recording, hw'.getHistory] at e
          rw [UserTuner.serve, UserTuner.serve, ← Option.some.inj e, if_pos ⟨hr, fun _ _ h => nomatch h⟩]
          exact ⟨rfl, rfl, rfl⟩
        | suggest f r =>
          have e := hw.suggest
          unfold UserTuner.serve
          rw [e, hw'.suggest, recording]
          cases hv : v.suggest with
          | none =>
            rw [if_neg (fun h => by have := h.2 f r rfl; rw [hv] at this; cases this)]
            exact ⟨(List.append_nil _).symm, rfl, rfl⟩
          | some g =>
            rw [if_pos ⟨hr, fun _ _ _ => by rw [hv]; rfl⟩]
            exact ⟨rfl, rfl, rfl⟩
      · rw [if_neg (fun h => hr h.1), List.append_nil]
        unfold callTuner
        dsimp only
        rcases checkCall_refused v hr with ⟨e, -, h⟩ | ⟨h, -⟩
        · rw [h]
          exact ⟨rfl, rfl, rfl⟩
        · rw [h]
          exact ⟨rfl, rfl, rfl⟩
    obtain ⟨k1, k2, k3⟩ := key
    have ih := C99_trace ht ht' w cs (callTuner w (some t) c (s, log)).1.1 (callTuner w (some t) c (s, log)).1.2
    rw [callsTuner, callsTuner]
    dsimp only
    rw [k2] at ih
    have e : (callTuner w (some t) c (s, log)).1 = ((callTuner w (some t') c s).1, (callTuner w (some t) c (s, log)).1.2) := by
      rw [← k2]
    rw [e]
    refine ⟨?_, ih.2.1, by rw [ih.2.2, k3]⟩
    rw [ih.1, k1, List.filter_cons]
    by_cases hr : Reaches w v c <;> simp [hr]

end

/-- **C99** The pointer given at creation comes back, from user defined tuners only. -/
theorem C99_pointer {name : Option Bytes} {space features objectives ret : Bool} {v : UserVector τ} {pointer : BitVec 64} {t : UserTuner τ}
    (ht : createUserTuner name space features objectives ret (some v) pointer = .ok t) (withFeatures : Bool) :
    getTunerData withFeatures (some userDefinedTuner) t.pointer true = .ok pointer ∧
    getTunerData withFeatures (some userDefinedTuner) t.pointer false = .err .invalidValue ∧
    getTunerData withFeatures none t.pointer true = .err .invalidObject ∧
    ∀ type, type ≠ userDefinedTuner → getTunerData withFeatures (some type) t.pointer true =
      .err (if withFeatures then .invalidFeaturesTuner else .invalidTuner) := by
  refine ⟨?_, rfl, rfl, fun type h => ?_⟩
  · rw [(create_wraps ht).2.2]
    rfl
  · unfold getTunerData
    simp only [Out.bind_ok, refute, if_neg (by decide : ¬ (true = false))]
    rw [if_pos (show type ≠ 1#32 from h)]
    rfl

/-! ## C100 -/

section
variable {σ : Type} {H : Host σ} {P : Places} {mem mem' : BitVec 64 → Param} {mk : Nat → Param → Out Dist} {hp : Heap}
  {pdata : BitVec 64 → Bytes} {o : TunerObj} {v : UserVector τ} {t : UserTuner τ} {s : τ} {hist opt : List (BitVec 64)} {st : Bytes}

/-- **C100** A user defined tuner is written on the announced number of bytes, from what its callbacks show, and this does not change
the state of the user. -/
theorem C100_written {name : Option Bytes} {space features objectives ret : Bool} {pointer : BitVec 64}
    (ht : createUserTuner name space features objectives ret (some v) pointer = .ok t) (hd : Displays v s hist opt st)
    (h : StoredRun H P mem mem' mk hp pdata (o.showing (hist, opt))) :
    ∃ bs wr, t.size H.M.ops H.little hp pdata o s = (s, .ok bs.length) ∧ t.store H.M.ops H.little hp pdata o s = (s, .ok wr) ∧
      WritesBytes wr bs := by
  have hw := (create_wraps ht).1
  have hg := gather_displays hw hd h.size
  refine ⟨_, _, ?_, ?_, writes_userTuner h st⟩
  · rw [UserTuner.size, hg, thenUser_ok, stateSize_displays hw hd, thenUser_ok, length_run h, Out.bind_ok, ← length_userTuner]
    rfl
  · rw [UserTuner.store, hg, thenUser_ok, state_displays hw hd, thenUser_ok]

theorem stored_bytes {name : Option Bytes} {space features objectives ret : Bool} {pointer : BitVec 64}
    (ht : createUserTuner name space features objectives ret (some v) pointer = .ok t) (hd : Displays v s hist opt st)
    (h : StoredRun H P mem mem' mk hp pdata (o.showing (hist, opt))) {bs : Bytes} {wr : Wr}
    (hw : t.store H.M.ops H.little hp pdata o s = (s, .ok wr)) (hbs : WritesBytes wr bs) :
    bs = userTunerBytes H.M.ops H.little hp pdata (o.showing (hist, opt)) st := by
  have hg := gather_displays (create_wraps ht).1 hd h.size
  rw [UserTuner.store, hg, thenUser_ok, state_displays (create_wraps ht).1 hd, thenUser_ok] at hw
  obtain rfl := Out.ok.inj (Prod.mk.inj hw).2
  exact writes_unique hbs (writes_userTuner h st)

section
variable {name : Option Bytes} {space features objectives ret : Bool} {pointer : BitVec 64}
  (ht : createUserTuner name space features objectives ret (some v) pointer = .ok t) (hd : Displays v s hist opt st)
  (h : StoredRun H P mem mem' mk hp pdata (o.showing (hist, opt))) {bs : Bytes} {wr : Wr}
  (hw : t.store H.M.ops H.little hp pdata o s = (s, .ok wr)) (hbs : WritesBytes wr bs)
include ht hd h hw hbs

/-- **C100** What was written is read with any callbacks of the reading user: the spaces and the evaluations come back, and the new tuner
is created with these callbacks and the pointer given.  If there is a callback for it, it gets the evaluations that took the place of
the history and of the optima, and the saved state, byte for byte; else the evaluations are told.  The outcome is that of the
callback, and nothing else is asked of the user.  Missing: histories with an evaluation twice
(`C100_told_twice_refused`) or evaluations of other spaces, optima outside of the history (`C100_foreign_optimum_refused`), spaces that
cannot be made again; the state and the optima are lost when there is no callback (`C100_state_lost`). -/
theorem C100_round_trip_partial {rs : ReadSpace} (hrs : rebuilt H mem' H.little hp o.space = .ok rs)
    (hb : ∀ x ∈ hist, Belongs (o.showing (hist, opt)) (o.evals x)) (hn : (spacesOf o ++ hist).Nodup) (hopt : ∀ x ∈ opt, x ∈ hist)
    (hst : st.length < 2 ^ 64) {v' : UserVector τ} (hv : Complete v') (pointer' : BitVec 64) (s' : τ) :
    ∃ r t' u, SameTuner P mem' pdata (o.showing (hist, opt)) rs r ∧
      createUserTuner (some o.name) true true true true (some v') pointer' = .ok t' ∧
      Revived v' s' (hist.map (followEval P ⟨hist, opt⟩)) (opt.map (followEval P ⟨hist, opt⟩)) st u ∧
      ReadsAs (deUserTuner H o.features.isSome P (some v') pointer' s') bs (u.2 >>= fun _ => .ok (u.1, t', r)) := by
  obtain rfl := stored_bytes ht hd h hw hbs
  obtain ⟨r, h1, h2⟩ := run_back h hrs hb hn hopt
  obtain ⟨t', h3, h4, h5, h6⟩ := create_complete hv o.name pointer'
  have hr := readsAs_userTuner (o := o.showing (hist, opt)) h.data (x := .ok r) h1 hst v' pointer' s'
  refine ⟨_, t', t'.revive (hist.map (followEval P ⟨hist, opt⟩)) (opt.map (followEval P ⟨hist, opt⟩)) st s', h2, h3, revive_revived h4 _ _ _ _,
    ?_⟩
  have e1 : r.history.map (·.handle) = hist.map (followEval P ⟨hist, opt⟩) := h2.history
  have e2 : r.optima = opt.map (followEval P ⟨hist, opt⟩) := h2.optima
  have e3 : r.name = o.name := h2.name
  rw [Out.bind_ok, e3, h3, Out.bind_ok, e1, e2, reviveOut, bind_bind] at hr
  rw [e1, e2, e3]
  exact hr

/-- **C100, violated** When the callbacks that read do not include `deserialize_state`, the history is told: neither the optima
nor the state that were written have any influence on the state of the user. -/
theorem C100_state_lost {rs : ReadSpace} (hrs : rebuilt H mem' H.little hp o.space = .ok rs)
    (hb : ∀ x ∈ hist, Belongs (o.showing (hist, opt)) (o.evals x)) (hn : (spacesOf o ++ hist).Nodup) (hopt : ∀ x ∈ opt, x ∈ hist)
    (hst : st.length < 2 ^ 64) {v' : UserVector τ} (hv : Complete v') (hno : v'.restore = none) (pointer' : BitVec 64) (s' : τ)
    {tell : List (BitVec 64) → τ → τ × Out Unit} (htell : v'.tell = some tell)
    (hok : (tell (hist.map (followEval P ⟨hist, []⟩)) s').2 = .ok ()) :
    ∃ t' r, ∀ tail, deUserTuner H o.features.isSome P (some v') pointer' s' (bs ++ tail) =
      .ok (((tell (hist.map (followEval P ⟨hist, []⟩)) s').1, t', r), tail) := by
  obtain ⟨r, t', u, -, -, h3, h4⟩ := C100_round_trip_partial ht hd h hw hbs hrs hb hn hopt hst hv pointer' s'
  refine ⟨t', r, ?_⟩
  have e : ∀ l, followEval P ⟨hist, l⟩ = followEval P ⟨hist, []⟩ := fun l => rfl
  rcases h3 with ⟨g, hg, -⟩ | ⟨-, g, hg, rfl⟩
  · rw [hno] at hg
    cases hg
  · rw [htell] at hg
    obtain rfl := Option.some.inj hg
    rw [e, hok, Out.bind_ok] at h4
    exact h4

/-- **C100** When a callback fails, reading fails with its error. -/
theorem C100_callback_error {rs : ReadSpace} (hrs : rebuilt H mem' H.little hp o.space = .ok rs)
    (hb : ∀ x ∈ hist, Belongs (o.showing (hist, opt)) (o.evals x)) (hn : (spacesOf o ++ hist).Nodup) (hopt : ∀ x ∈ opt, x ∈ hist)
    (hst : st.length < 2 ^ 64) {v' : UserVector τ} (hv : Complete v') (pointer' : BitVec 64) (s' : τ) {e : Err}
    (hr : ∀ u, Revived v' s' (hist.map (followEval P ⟨hist, opt⟩)) (opt.map (followEval P ⟨hist, opt⟩)) st u → u.2 = .err e) :
    ∀ tail, deUserTuner H o.features.isSome P (some v') pointer' s' (bs ++ tail) = .err e := by
  obtain ⟨r, t', u, -, -, h3, h4⟩ := C100_round_trip_partial ht hd h hw hbs hrs hb hn hopt hst hv pointer' s'
  rw [hr u h3] at h4
  exact h4

/-- **C100** Without callbacks, or with callbacks of which one that must be given is missing, nothing is read. -/
theorem C100_vector_refused {rs : ReadSpace} (hrs : rebuilt H mem' H.little hp o.space = .ok rs)
    (hb : ∀ x ∈ hist, Belongs (o.showing (hist, opt)) (o.evals x)) (hn : (spacesOf o ++ hist).Nodup) (hopt : ∀ x ∈ opt, x ∈ hist)
    (hst : st.length < 2 ^ 64) (pointer' : BitVec 64) (s' : τ) {v' : Option (UserVector τ)} (hv : ∀ x, v' = some x → ¬ Complete x) :
    ∀ tail, deUserTuner H o.features.isSome P v' pointer' s' (bs ++ tail) = .err .invalidValue := by
  obtain rfl := stored_bytes ht hd h hw hbs
  cases v' with
  | none => exact userTuner_noVector (o := o.showing (hist, opt)) st pointer' s'
  | some x =>
    obtain ⟨r, h1, -⟩ := run_back h hrs hb hn hopt
    have hr := readsAs_userTuner (o := o.showing (hist, opt)) h.data (x := .ok r) h1 hst x pointer' s'
    rw [Out.bind_ok, create_incomplete (hv x rfl), Out.bind_err] at hr
    exact hr

/-- **C100, violated** When the callbacks show a history with an evaluation twice, or one that has the address of a space, the tuner is
written, and what was written is refused. -/
theorem C100_told_twice_refused {rs : ReadSpace} (hrs : rebuilt H mem' H.little hp o.space = .ok rs)
    (hb : ∀ x ∈ hist, Belongs (o.showing (hist, opt)) (o.evals x)) (hn : ¬ (spacesOf o ++ hist).Nodup) (hst : st.length < 2 ^ 64)
    (v' : UserVector τ) (pointer' : BitVec 64) (s' : τ) :
    ∀ tail, deUserTuner H o.features.isSome P (some v') pointer' s' (bs ++ tail) = .err .duplicateHandle := by
  obtain rfl := stored_bytes ht hd h hw hbs
  have hr := readsAs_userTuner (o := o.showing (hist, opt)) h.data (run_clash h hrs hb hn) hst v' pointer' s'
  rwa [Out.bind_err] at hr

/-- **C100, violated** When the callbacks show an optimum that is not in the history they show, nor a space, the tuner is written, and what
was written is refused. -/
theorem C100_foreign_optimum_refused {rs : ReadSpace} (hrs : rebuilt H mem' H.little hp o.space = .ok rs)
    (hb : ∀ x ∈ hist, Belongs (o.showing (hist, opt)) (o.evals x)) (hn : (spacesOf o ++ hist).Nodup) (hst : st.length < 2 ^ 64)
    {x : BitVec 64} (hx : x ∈ opt) (hx' : x ∉ spacesOf o ++ hist) (v' : UserVector τ) (pointer' : BitVec 64) (s' : τ) :
    ∀ tail, deUserTuner H o.features.isSome P (some v') pointer' s' (bs ++ tail) = .err .invalidHandle := by
  obtain rfl := stored_bytes ht hd h hw hbs
  have hr := readsAs_userTuner (o := o.showing (hist, opt)) h.data (run_optimum h hrs hb hn hx hx') hst v' pointer' s'
  rwa [Out.bind_err] at hr

end
end

/-! ## C101 -/

section
variable {H : TreeHost} {P : Places} {mem mem' : BitVec 64 → Param} {g : Grove} {addr : Nat → BitVec 64} {pdata : BitVec 64 → Bytes}
  {o : TreeTunerObj} {v : UserVector τ} {t : UserTuner τ} {s : τ} {hist opt : List (BitVec 64)} {st : Bytes}
  {name : Option Bytes} {space features objectives ret : Bool} {pointer : BitVec 64}

/-- **C101** A user defined tree tuner is written on the announced number of bytes, from what its callbacks show, and this does not
change the state of the user. -/
theorem C101_written (ht : createUserTuner name space features objectives ret (some v) pointer = .ok t) (hd : Displays v s hist opt st)
    (h : StoredTreeRun H P mem mem' g pdata (o.showing (hist, opt))) (addr : Nat → BitVec 64) :
    ∃ bs wr, t.treeSize H.little g addr pdata o s = (s, .ok bs.length) ∧ t.treeStore H.little g addr pdata o s = (s, .ok wr) ∧
      WritesBytes wr bs := by
  have hw := (create_wraps ht).1
  have hg := gather_displays hw hd h.size
  refine ⟨_, _, ?_, ?_, writes_userTreeTuner h addr st⟩
  · rw [UserTuner.treeSize, hg, thenUser_ok, stateSize_displays hw hd, thenUser_ok, length_treeRun h addr, Out.bind_ok, ← length_userTreeTuner]
    rfl
  · rw [UserTuner.treeStore, hg, thenUser_ok, state_displays hw hd, thenUser_ok]

theorem storedTree_bytes (ht : createUserTuner name space features objectives ret (some v) pointer = .ok t) (hd : Displays v s hist opt st)
    (h : StoredTreeRun H P mem mem' g pdata (o.showing (hist, opt))) {bs : Bytes} {wr : Wr}
    (hw : t.treeStore H.little g addr pdata o s = (s, .ok wr)) (hbs : WritesBytes wr bs) :
    bs = userTreeTunerBytes H.little g addr pdata (o.showing (hist, opt)) st := by
  have hg := gather_displays (create_wraps ht).1 hd h.size
  rw [UserTuner.treeStore, hg, thenUser_ok, state_displays (create_wraps ht).1 hd, thenUser_ok] at hw
  obtain rfl := Out.ok.inj (Prod.mk.inj hw).2
  exact writes_unique hbs (writes_userTreeTuner h addr st)

theorem stored_vector {o : TreeTunerObj} (h : StoredTreeRun H P mem mem' g pdata o) (x : Option TreeVector) :
    StoredTreeRun { H with vector := x } P mem mem' g pdata o :=
  ⟨h.name, h.data, h.space, h.room, h.objectives, h.objAddrs, h.objPlaces, h.spaces, h.evals, h.size⟩

variable (ht : createUserTuner name space features objectives ret (some v) pointer = .ok t) (hd : Displays v s hist opt st)
  (h : StoredTreeRun H P mem mem' g pdata (o.showing (hist, opt))) {bs : Bytes} {wr : Wr}
  (hw : t.treeStore H.little g addr pdata o s = (s, .ok wr)) (hbs : WritesBytes wr bs)
include ht hd h hw hbs

/-- **C101** Over a static tree space, what was written is read with any callbacks of the reading user, as in `C100_round_trip_partial`.
Missing: what is missing there, and dynamic tree spaces (`C101_dynamic_undefined`). -/
theorem C101_round_trip_partial (hs : o.space.state = none) {f : Bytes} (hgen : newGenerator H.gens o.space.rng.name = .ok f)
    (hb : ∀ x ∈ hist, BelongsTo (o.showing (hist, opt)) (o.evals x))
    (hn : ([o.space.handle, o.objectives.handle] ++ hist).Nodup) (hopt : ∀ x ∈ opt, x ∈ hist)
    (hst : st.length < 2 ^ 64) {v' : UserVector τ} (hv : Complete v') (pointer' : BitVec 64) (s' : τ) :
    ∃ r t' u, SameTreeTuner H P mem' g pdata (o.showing (hist, opt)) r ∧
      createUserTuner (some o.name) true true true true (some v') pointer' = .ok t' ∧
      Revived v' s' (hist.map (followEval P ⟨hist, opt⟩)) (opt.map (followEval P ⟨hist, opt⟩)) st u ∧
      ReadsAs (deUserTreeTuner H P (some v') pointer' s') bs (u.2 >>= fun _ => .ok (u.1, t', r)) := by
  obtain rfl := storedTree_bytes ht hd h hw hbs
  obtain ⟨r, h1, h2⟩ := treeRun_back (stored_vector h (some v'.asTreeVector)) addr hs hgen hb hn hopt
  obtain ⟨t', h3, h4, h5, h6⟩ := create_complete hv o.name pointer'
  have hr := readsAs_userTreeTuner (o := o.showing (hist, opt)) h.data v' (x := .ok r) h1 hst pointer' s'
  refine ⟨⟨o.handle, r.name, r.trees, r.space, r.objectives, r.history, ⟨r.history.map (·.handle), r.optima⟩, o.data⟩, t',
    t'.revive (hist.map (followEval P ⟨hist, opt⟩)) (opt.map (followEval P ⟨hist, opt⟩)) st s',
    ⟨h2.handle, h2.name, h2.data, h2.spaceName, h2.spaceData, h2.tree, h2.objectives, h2.count, h2.evals, h2.history, h2.optima⟩, h3,
    revive_revived h4 _ _ _ _, ?_⟩
  have e1 : r.history.map (·.handle) = hist.map (followEval P ⟨hist, opt⟩) := h2.history
  have e2 : r.optima = opt.map (followEval P ⟨hist, opt⟩) := h2.optima
  have e3 : r.name = o.name := h2.name
  rw [Out.bind_ok, e3, h3, Out.bind_ok, e1, e2, reviveOut, bind_bind] at hr
  rw [e1, e2, e3]
  exact hr

/-- **C101** Without callbacks nothing is read, and over a static tree space not with incomplete callbacks either. -/
theorem C101_vector_refused (pointer' : BitVec 64) (s' : τ) :
    (∀ tail, deUserTreeTuner H P (none : Option (UserVector τ)) pointer' s' (bs ++ tail) = .err .invalidValue) ∧
    ∀ f, o.space.state = none → newGenerator H.gens o.space.rng.name = .ok f →
      (∀ x ∈ hist, BelongsTo (o.showing (hist, opt)) (o.evals x)) → ([o.space.handle, o.objectives.handle] ++ hist).Nodup →
      (∀ x ∈ opt, x ∈ hist) → st.length < 2 ^ 64 → ∀ v', ¬ Complete v' →
      ∀ tail, deUserTreeTuner H P (some v') pointer' s' (bs ++ tail) = .err .invalidValue := by
  obtain rfl := storedTree_bytes ht hd h hw hbs
  refine ⟨userTreeTuner_noVector (o := o.showing (hist, opt)) addr st pointer' s', fun f hs hgen hb hn hopt hst v' hv => ?_⟩
  obtain ⟨r, h1, -⟩ := treeRun_back (stored_vector h (some v'.asTreeVector)) addr hs hgen hb hn hopt
  have hr := readsAs_userTreeTuner (o := o.showing (hist, opt)) h.data v' (x := .ok r) h1 hst pointer' s'
  rw [Out.bind_ok, create_incomplete hv, Out.bind_err] at hr
  exact hr

/-- **C101, violated** When the callbacks show a history with an evaluation twice, the tree tuner is written, and what was written is
refused. -/
theorem C101_told_twice_refused (hs : o.space.state = none) {f : Bytes} (hgen : newGenerator H.gens o.space.rng.name = .ok f)
    (hb : ∀ x ∈ hist, BelongsTo (o.showing (hist, opt)) (o.evals x))
    (hn : ¬ ([o.space.handle, o.objectives.handle] ++ hist).Nodup) (hst : st.length < 2 ^ 64)
    (v' : UserVector τ) (pointer' : BitVec 64) (s' : τ) :
    ∀ tail, deUserTreeTuner H P (some v') pointer' s' (bs ++ tail) = .err .duplicateHandle := by
  obtain rfl := storedTree_bytes ht hd h hw hbs
  have hr := readsAs_userTreeTuner (o := o.showing (hist, opt)) h.data v'
    (treeRun_clash (stored_vector h (some v'.asTreeVector)) addr hs hgen hb hn) hst pointer' s'
  rwa [Out.bind_err] at hr

/-- **C101, violated** When the callbacks show an optimum that is not in the history they show, nor a space, the tree tuner is
written, and what was written is refused. -/
theorem C101_foreign_optimum_refused (hs : o.space.state = none) {f : Bytes} (hgen : newGenerator H.gens o.space.rng.name = .ok f)
    (hb : ∀ x ∈ hist, BelongsTo (o.showing (hist, opt)) (o.evals x))
    (hn : ([o.space.handle, o.objectives.handle] ++ hist).Nodup) (hst : st.length < 2 ^ 64)
    {x : BitVec 64} (hx : x ∈ opt) (hx' : x ∉ [o.space.handle, o.objectives.handle] ++ hist)
    (v' : UserVector τ) (pointer' : BitVec 64) (s' : τ) :
    ∀ tail, deUserTreeTuner H P (some v') pointer' s' (bs ++ tail) = .err .invalidHandle := by
  obtain rfl := storedTree_bytes ht hd h hw hbs
  have hr := readsAs_userTreeTuner (o := o.showing (hist, opt)) h.data v'
    (treeRun_optimum (stored_vector h (some v'.asTreeVector)) addr hs hgen hb hn hx hx') hst pointer' s'
  rwa [Out.bind_err] at hr

/-- **C101, violated** Over a dynamic tree space, reading what was written is undefined, with any callbacks that can make a tuner: the
callbacks of the tuner are called as if they were those of the tree space. -/
theorem C101_dynamic_undefined {state : Bytes} (hs : o.space.state = some state) {f : Bytes}
    (hgen : newGenerator H.gens o.space.rng.name = .ok f) {v' : UserVector τ} (hv : Complete v') (pointer' : BitVec 64) (s' : τ) :
    ∀ tail, deUserTreeTuner H P (some v') pointer' s' (bs ++ tail) = .ub := by
  obtain rfl := storedTree_bytes ht hd h hw hbs
  obtain ⟨h1, h2, -, h4, -⟩ := hv
  have hvec : v'.asTreeVector = ⟨true, some fun _ => .ub⟩ := by
    unfold UserVector.asTreeVector
    rw [h1, h2, h4]
    rfl
  have htype : o.space.type = dynamicSpace := by unfold TreeSpaceObj.type; rw [hs]; rfl
  obtain ⟨g', root', -, r2⟩ := readsAs_treeSpace (o := o.space) h.space H.little H.little addr H.gens H.fresh (some v'.asTreeVector) h.room [] P.space
    (h.space.state state hs)
  have hout : ∀ rng, makeTreeSpace H.fresh (some v'.asTreeVector) o.space.type rng = .ub := by
    intro rng
    rw [hvec, htype]
    rfl
  have hsp : ReadsAs (deTreeSpace H.ops H.little H.gens H.fresh (some v'.asTreeVector) H.room [] P.space)
      (treeSpaceHead H.little g addr o.space ++ blobBytes state) .ub := by
    rw [hgen, Out.bind_ok, hout, Out.bind_ub] at r2
    exact r2
  intro tail
  unfold deUserTreeTuner userTreeTunerBytes
  rw [List.append_assoc, run_step (decodes_obj _ _).1, lift_run, refute, if_neg (by simp), Out.bind_ok, List.append_assoc, List.append_assoc,
    run_step (decodes_enum _).1, lift_run, refute, if_neg (by simp), Out.bind_ok, lift_run, refute, if_neg (by simp), Out.bind_ok,
    Rd.bind_eq]
  have hrun : ∀ tail, deTreeRun { H with vector := some v'.asTreeVector } P
      (treeRunBytes H.little g addr pdata (o.showing (hist, opt)) ++ tail) = .ub := by
    intro tail
    have hb : treeSpaceBytes H.little g addr o.space = (treeSpaceHead H.little g addr o.space ++ blobBytes state) ++ blobBytes o.space.data := by
      unfold treeSpaceBytes
      rw [hs, List.append_assoc]
      rfl
    unfold deTreeRun treeRunBytes
    rw [List.append_assoc, run_step (decodes_string h.name.1 h.name.2).1, Rd.bind_eq]
    rw [show (o.showing (hist, opt)).space = o.space from rfl, hb]
    simp only [List.append_assoc]
    have := hsp (blobBytes o.space.data ++ (treeTunerTail pdata (o.showing (hist, opt)) ++ tail))
    simp only [List.append_assoc] at this
    rw [this]
    rfl
  have := hrun (blobBytes st ++ (blobBytes o.data ++ tail))
  rw [List.append_assoc]
  show deTreeRun { H with vector := some v'.asTreeVector } P _ >>= _ = _
  rw [show (o.showing (hist, opt)).data = o.data from rfl, this]
  rfl

end

/-! ## C102 -/

/-- **C102** Whatever bytes are read as a tuner, random or user defined, its optima are at the addresses of evaluations of its
history, or of its spaces.  Missing: that they are evaluations (`C102_space_as_optimum`), and that they are those that no evaluation
of the history dominates (`C102_any_optima`). -/
theorem C102_optima_partial {σ : Type} {H : Host σ} {withFeatures : Bool} {P : Places} {bs rest : Bytes} {r : ReadTuner}
    (h : deTuner H withFeatures P bs = .ok (r, rest) ∨
      ∃ (τ : Type) (v : Option (UserVector τ)) (pointer : BitVec 64) (s s' : τ) (t : UserTuner τ),
        deUserTuner H withFeatures P v pointer s bs = .ok ((s', t, r), rest)) :
    ∀ x ∈ r.tuner.optima, x ∈ r.tuner.history ∨ x = P.space ∨ x = P.objectives ∨ (withFeatures = true ∧ x = P.features) := by
  rcases h with h | ⟨τ, v, pointer, s, s', t, h⟩
  · unfold deTuner at h
    obtain ⟨_, _, -, h⟩ := DistObj.rd_bind_ok h
    obtain ⟨_, -, h⟩ := lift_rd_ok h
    obtain ⟨_, _, -, h⟩ := DistObj.rd_bind_ok h
    obtain ⟨_, -, h⟩ := lift_rd_ok h
    obtain ⟨run, _, hr, h⟩ := DistObj.rd_bind_ok h
    obtain ⟨_, _, -, h⟩ := DistObj.rd_bind_ok h
    obtain ⟨rfl, -⟩ := Prod.mk.inj (Out.ok.inj h)
    exact deRun_optima hr
  · unfold deUserTuner at h
    obtain ⟨_, _, -, h⟩ := DistObj.rd_bind_ok h
    obtain ⟨_, -, h⟩ := lift_rd_ok h
    obtain ⟨_, _, -, h⟩ := DistObj.rd_bind_ok h
    obtain ⟨_, -, h⟩ := lift_rd_ok h
    obtain ⟨_, -, h⟩ := lift_rd_ok h
    obtain ⟨run, _, hr, h⟩ := DistObj.rd_bind_ok h
    obtain ⟨_, _, -, h⟩ := DistObj.rd_bind_ok h
    obtain ⟨_, -, h⟩ := lift_rd_ok h
    obtain ⟨_, -, h⟩ := lift_rd_ok h
    obtain ⟨_, _, -, h⟩ := DistObj.rd_bind_ok h
    obtain ⟨h1, -⟩ := Prod.mk.inj (Out.ok.inj h)
    obtain ⟨-, h1⟩ := Prod.mk.inj h1
    obtain ⟨-, rfl⟩ := Prod.mk.inj h1
    exact deRun_optima hr

/-- **C102** The same for tree tuners. -/
theorem C102_tree_optima_partial {H : TreeHost} {P : Places} {bs rest : Bytes} {r : ReadTreeTuner}
    (h : deTreeTuner H P bs = .ok (r, rest) ∨
      ∃ (τ : Type) (v : Option (UserVector τ)) (pointer : BitVec 64) (s s' : τ) (t : UserTuner τ),
        deUserTreeTuner H P v pointer s bs = .ok ((s', t, r), rest)) :
    ∀ x ∈ r.tuner.optima, x ∈ r.tuner.history ∨ x = P.space ∨ x = P.objectives := by
  rcases h with h | ⟨τ, v, pointer, s, s', t, h⟩
  · unfold deTreeTuner at h
    obtain ⟨_, _, -, h⟩ := DistObj.rd_bind_ok h
    obtain ⟨_, -, h⟩ := lift_rd_ok h
    obtain ⟨_, _, -, h⟩ := DistObj.rd_bind_ok h
    obtain ⟨_, -, h⟩ := lift_rd_ok h
    obtain ⟨run, _, hr, h⟩ := DistObj.rd_bind_ok h
    obtain ⟨_, _, -, h⟩ := DistObj.rd_bind_ok h
    obtain ⟨rfl, -⟩ := Prod.mk.inj (Out.ok.inj h)
    exact deTreeRun_optima hr
  · unfold deUserTreeTuner at h
    obtain ⟨_, _, -, h⟩ := DistObj.rd_bind_ok h
    obtain ⟨_, -, h⟩ := lift_rd_ok h
    obtain ⟨_, _, -, h⟩ := DistObj.rd_bind_ok h
    obtain ⟨_, -, h⟩ := lift_rd_ok h
    obtain ⟨_, -, h⟩ := lift_rd_ok h
    obtain ⟨run, _, hr, h⟩ := DistObj.rd_bind_ok h
    obtain ⟨_, _, -, h⟩ := DistObj.rd_bind_ok h
    obtain ⟨_, -, h⟩ := lift_rd_ok h
    obtain ⟨_, -, h⟩ := lift_rd_ok h
    obtain ⟨_, _, -, h⟩ := DistObj.rd_bind_ok h
    obtain ⟨h1, -⟩ := Prod.mk.inj (Out.ok.inj h)
    obtain ⟨-, h1⟩ := Prod.mk.inj h1
    obtain ⟨-, rfl⟩ := Prod.mk.inj h1
    exact deTreeRun_optima hr

section
variable {σ : Type} {H : Host σ} {P : Places} {mem mem' : BitVec 64 → Param} {mk : Nat → Param → Out Dist} {hp : Heap}
  {pdata : BitVec 64 → Bytes} {o : TunerObj}

theorem tuner_back (hdata : o.data.length < 2 ^ 64) {r : ReadRun} (h : ReadsBack (deRun H o.features.isSome P) (runBytes H.M.ops H.little hp pdata o) r) :
    ReadsBack (deTuner H o.features.isSome P) (tunerBytes H.M.ops H.little hp pdata o)
      ⟨o.handle, r.name, r.space, r.objectives, r.features, r.history, ⟨r.history.map (·.handle), r.optima⟩, o.data⟩ := by
  show ReadsAs _ _ (.ok _)
  unfold deTuner tunerBytes
  refine readsAs_step (decodes_obj _ _).1 (readsAs_pass (by simp) ?_)
  rw [List.append_assoc]
  exact readsAs_step (decodes_enum _).1 (readsAs_pass (by simp) (readsAs_step h (readsAs_ok (reads_bind_pure (reads_userData hdata) rfl))))

/-- **C102, violated** Take a random tuner with no evaluation, and a message for it whose only optimum is its configuration space: the
message is accepted, and the optimum of the tuner is the space that was read. -/
theorem C102_space_as_optimum (h : StoredRun H P mem mem' mk hp pdata (o.showing ([], [o.space.handle]))) {rs : ReadSpace}
    (hrs : rebuilt H mem' H.little hp o.space = .ok rs) :
    ∃ bs r, ReadsBack (deTuner H o.features.isSome P) bs r ∧ r.tuner = ⟨[], [P.space]⟩ := by
  obtain ⟨s', fs, m, -, -, -, -, h5, -, h7⟩ := readsAs_run h hrs
  obtain ⟨c, hc, -⟩ := h5.space
  have e : findOptima m [o.space.handle] = .ok [P.space] := by
    have hc' : m.get o.space.handle = some ⟨configurationSpaceType, P.space, c⟩ := hc
    rw [findOptima, findOptimum, hc']
    rfl
  have h8 : ReadsBack (deRun H o.features.isSome P) (runBytes H.M.ops H.little hp pdata (o.showing ([], [o.space.handle])))
      ⟨o.name, rs, (⟨P.objectives, o.objectives.name, s', o.objectives.data⟩, o.objectives.space.ctx.params.map fun x => pdata x.1), fs, [],
        [P.space]⟩ := by
    intro tail
    have := h7 tail
    rw [show historyOutcome H.jen H.little P 0 m ((o.showing ([], [o.space.handle])).tuner.history.map (o.showing ([], [o.space.handle])).evals) =
      .ok (m, []) from rfl, Out.bind_ok, show (o.showing ([], [o.space.handle])).tuner.optima = [o.space.handle] from rfl, e] at this
    exact this
  exact ⟨_, _, tuner_back (o := o.showing ([], [o.space.handle])) h.data h8, rfl⟩

/-- **C102, violated** Take any evaluations of the history of a random tuner, whatever their objectives, in any order and number: a message
with these as optima is accepted, and they are the optima of the tuner that was read. -/
theorem C102_any_optima {hist opt : List (BitVec 64)} (h : StoredRun H P mem mem' mk hp pdata (o.showing (hist, opt))) {rs : ReadSpace}
    (hrs : rebuilt H mem' H.little hp o.space = .ok rs)
    (hb : ∀ x ∈ hist, Belongs (o.showing (hist, opt)) (o.evals x)) (hn : (spacesOf o ++ hist).Nodup) (hopt : ∀ x ∈ opt, x ∈ hist) :
    ∃ bs r, ReadsBack (deTuner H o.features.isSome P) bs r ∧ r.tuner.history = hist.map (followEval P ⟨hist, opt⟩) ∧
      r.tuner.optima = opt.map (followEval P ⟨hist, opt⟩) := by
  obtain ⟨r, h1, h2⟩ := run_back h hrs hb hn hopt
  exact ⟨_, _, tuner_back (o := o.showing (hist, opt)) h.data h1, h2.history, h2.optima⟩

end

/-! Instances: a user whose state is that of a random tuner. -/

/-- A listing, as a callback. -/
def exListing (l : List (BitVec 64)) (array count : Bool) : Listed := (if array then some l else none, if count then some l.length else none)

/-- The callbacks; `restore` tells whether `deserialize_state` is given, and `suggest` whether `suggest` is. -/
def exUser (restore suggest : Bool) : UserVector Tuner where
  del := some fun s => (s, .ok ())
  ask := some fun _ n a c s => (s, .ok (exListing (List.replicate n 5001#64) a c))
  tell := some fun es s => s.tell exRunEnv es
  getOptima := some fun _ _ a c s => (s, .ok (exListing s.optima a c))
  getHistory := some fun _ _ a c s => (s, .ok (exListing s.history a c))
  suggest := if suggest then some fun _ s => (s, .ok 5001#64) else none
  save := some fun _ a c s => (s, .ok (if a then some [1#8, 2#8, 3#8] else none, if c then some 3 else none))
  restore := if restore then some fun h o _ _ => (⟨h, o⟩, .ok ()) else none

theorem exUser_complete (r g : Bool) : Complete (exUser r g) := by simp [Complete, exUser]

theorem exUser_displays (r g : Bool) (t : Tuner) (hn : 0#64 ∉ t.history) :
    Displays (exUser r g) t t.history t.optima [1#8, 2#8, 3#8] := by
  constructor <;> simp_all [exUser, exListing]

/-- The hypotheses of `C99_call` and `C99_trace`: the callbacks make a tuner, with or without notes; some calls reach the user, some do
not. -/
example : (∃ t, createUserTuner (some [0x74#8]) true true true true (some (exUser true false)) 9#64 = .ok t) ∧
    (∃ t, createUserTuner (some [0x74#8]) true true true true (some (recording (exUser true false))) 9#64 = .ok t) ∧
    Reaches none (exUser true false) (.ask 3#64 2 true false) ∧ ¬ Reaches none (exUser true false) (.ask 3#64 2 false true) ∧
    ¬ Reaches none (exUser true false) (.suggest 3#64 true) ∧ Reaches none (exUser true true) (.suggest 3#64 true) := by
  refine ⟨⟨_, rfl⟩, ⟨_, rfl⟩, ?_, ?_, ?_, ?_⟩
  · simp [Reaches, RightCall, FeaturesOk, FillsArray]
  · simp [Reaches, RightCall, FeaturesOk, FillsArray]
  · simp [Reaches, RightCall, FeaturesOk, exUser]
  · simp [Reaches, RightCall, FeaturesOk, exUser]

/-- The trace of some calls, of which two are refused. -/
example : ∃ t, createUserTuner (some [0x74#8]) true true true true (some (recording (exUser true false))) 9#64 = .ok t ∧
    (callsTuner none t [.tell (some [4001#64]) 1, .tell none 2, .suggest 0#64 true, .getHistory 7#64 0 false true] (Tuner.empty, [])).1.2 =
      [.tell [4001#64], .getHistory 0#64 0 false true] := ⟨_, rfl, by decide +kernel⟩

theorem exRun_stored (feat : Bool) {hist opt : List (BitVec 64)} (hsz : hist.length + opt.length < 2 ^ 64) :
    StoredRun exHost exPlacesOf exMem exMem' exDefault exStore exPdata ((exTuner feat []).showing (hist, opt)) := by
  have h := (exTuner_stored feat [] (by decide)).toStoredRun
  refine ⟨h.name, h.data, h.space, h.spaceAddrs, h.objectives, h.objAddrs, h.objPlaces, h.features, h.spaces, fun x _ => ?_, hsz⟩
  refine ⟨rfl, exRunEval_storable _ _, ?_⟩
  cases feat <;> rfl

theorem exRun_belongs (feat : Bool) {hist opt : List (BitVec 64)} {x : BitVec 64} (hx : x.toNat < 4100) :
    Belongs ((exTuner feat []).showing (hist, opt)) ((exTuner feat []).evals x) := by
  have h := exRunEval_belongs feat [] hx
  exact ⟨h.configuration, h.objectives, h.without, h.features⟩

/-- The hypotheses of `C100_written`, `C100_round_trip_partial`, `C100_state_lost`, `C100_vector_refused` and `C102_any_optima`. -/
example (feat r g : Bool) : ∃ t, createUserTuner (some [0x74#8]) true true true true (some (exUser r g)) 9#64 = .ok t ∧
    Displays (exUser r g) ⟨[4001#64, 4002#64], [4002#64]⟩ [4001#64, 4002#64] [4002#64] [1#8, 2#8, 3#8] ∧
    StoredRun exHost exPlacesOf exMem exMem' exDefault exStore exPdata ((exTuner feat []).showing ([4001#64, 4002#64], [4002#64])) ∧
    (∃ rs, rebuilt exHost exMem' exHost.little exStore (exTuner feat []).space = .ok rs) ∧
    (∀ x ∈ [4001#64, 4002#64], Belongs ((exTuner feat []).showing ([4001#64, 4002#64], [4002#64])) ((exTuner feat []).evals x)) ∧
    (spacesOf (exTuner feat []) ++ [4001#64, 4002#64]).Nodup ∧ (∀ x ∈ [4002#64], x ∈ [4001#64, 4002#64]) ∧
    Complete (exUser r g) ∧ (exUser false g).restore = none := by
  refine ⟨_, rfl, exUser_displays r g ⟨[4001#64, 4002#64], [4002#64]⟩ (by simp), exRun_stored feat (by decide), exTuner_space, ?_, ?_,
    by simp, exUser_complete r g, rfl⟩
  · intro x hx
    refine exRun_belongs feat ?_
    simp only [List.mem_cons, List.not_mem_nil, or_false] at hx
    rcases hx with rfl | rfl <;> decide
  · cases feat <;> simp [spacesOf, exTuner, exSpaceObj, exTargetObj, exFeatObj]

/-- The hypotheses of `C100_told_twice_refused` and `C100_foreign_optimum_refused`. -/
example : Displays (exUser true true) ⟨[4001#64, 4001#64], []⟩ [4001#64, 4001#64] [] [1#8, 2#8, 3#8] ∧
    ¬ (spacesOf (exTuner false []) ++ [4001#64, 4001#64]).Nodup ∧
    Displays (exUser true true) ⟨[4001#64], [4002#64]⟩ [4001#64] [4002#64] [1#8, 2#8, 3#8] ∧
    4002#64 ∉ spacesOf (exTuner false []) ++ [4001#64] :=
  ⟨exUser_displays _ _ ⟨[4001#64, 4001#64], []⟩ (by simp), by simp [List.nodup_append], exUser_displays _ _ ⟨[4001#64], [4002#64]⟩ (by simp),
    by simp [spacesOf, exTuner, exSpaceObj, exTargetObj]⟩

/-- The hypotheses of `C102_space_as_optimum`. -/
example : ∃ bs r, ReadsBack (deTuner exHost false exPlacesOf) bs r ∧ r.tuner = ⟨[], [7000#64]⟩ := by
  obtain ⟨rs, hrs⟩ := exTuner_space
  exact C102_space_as_optimum (o := exTuner false []) (exRun_stored false (by decide)) hrs

theorem exTreeRun_stored (vector : Option TreeVector) (state : Option Bytes) (hs : ∀ s, state = some s → s.length < 2 ^ 64)
    {hist opt : List (BitVec 64)} (hsz : hist.length + opt.length < 2 ^ 64) :
    StoredTreeRun (exTreeHost vector) exPlacesOf exMem exMem' exGrove exPdata ((exTreeTuner state [] []).showing (hist, opt)) := by
  have h := (exTreeTuner_stored vector state [] [] hs (by simp) (by decide)).toStoredTreeRun
  exact ⟨h.name, h.data, h.space, h.room, h.objectives, h.objAddrs, h.objPlaces, h.spaces, fun x _ => ⟨rfl, exTreeEval_storable x⟩, hsz⟩

/-- The hypotheses of `C101_written`, `C101_round_trip_partial`, `C101_vector_refused` and, for a dynamic space, `C101_dynamic_undefined`. -/
example (r g : Bool) : ∃ t, createUserTuner (some [0x74#8]) true true true true (some (exUser r g)) 9#64 = .ok t ∧
    Displays (exUser r g) ⟨[4001#64, 4002#64], [4002#64]⟩ [4001#64, 4002#64] [4002#64] [1#8, 2#8, 3#8] ∧
    StoredTreeRun (exTreeHost none) exPlacesOf exMem exMem' exGrove exPdata ((exTreeTuner none [] []).showing ([4001#64, 4002#64], [4002#64])) ∧
    StoredTreeRun (exTreeHost none) exPlacesOf exMem exMem' exGrove exPdata
      ((exTreeTuner (some [7#8]) [] []).showing ([4001#64, 4002#64], [4002#64])) ∧
    newGenerator (exTreeHost none).gens exGen.name = .ok [0#8, 0#8, 0#8, 0#8] ∧
    (∀ x ∈ [4001#64, 4002#64], BelongsTo ((exTreeTuner none [] []).showing ([4001#64, 4002#64], [4002#64])) ((exTreeTuner none [] []).evals x)) ∧
    ([1000#64, 2000#64] ++ [4001#64, 4002#64]).Nodup ∧ Complete (exUser r g) := by
  refine ⟨_, rfl, exUser_displays r g ⟨[4001#64, 4002#64], [4002#64]⟩ (by simp), exTreeRun_stored none none (by simp) (by decide),
    exTreeRun_stored none (some [7#8]) (by simp) (by decide), by decide, ?_, by decide, exUser_complete r g⟩
  intro x hx
  have hx' : x.toNat < 4100 := by
    simp only [List.mem_cons, List.not_mem_nil, or_false] at hx
    rcases hx with rfl | rfl <;> decide
  have h := exTreeEval_belongs none [] [] hx'
  exact ⟨h.configuration, h.objectives⟩

end CCS.Props
