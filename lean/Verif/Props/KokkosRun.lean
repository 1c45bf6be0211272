import Verif.Lemmas.KokkosRun
import Verif.Spec.Ieee

/-!
# C115, C116 and C117: fences, evaluations and regions of the Kokkos connector

`Spec.Ledger` tells what the past is: which contexts are open, whether they are measured, and which contexts were measured.
-/

namespace CCS.Props

open CCS CCS.Spec

section
variable {ops : FloatOps} {toInt : F64 → Option (BitVec 64)} {jen : Bytes → BitVec 32} {little : Bool}
variable {mk : Nat → Param → Out Dist}

/-- The state of the connector follows the past. -/
theorem agrees_run {l l' : Ledger} {st st' : Kokkos.State} {es : List Kokkos.Event} {rs : List Kokkos.Reply}
    (ha : Kokkos.Agrees l st (tunerAddresses es)) (hnd : (tunerAddresses es).Nodup)
    (h : Kokkos.run ops toInt jen little mk st es = .ok (st', rs)) (hl : l.follow es = some l') : Kokkos.Agrees l' st' [] := by
  induction es generalizing l st rs with
  | nil =>
    cases h
    cases hl
    exact ha
  | cons e es ih =>
    unfold Kokkos.run at h
    obtain ⟨⟨st1, r⟩, h1, h⟩ := bind_eq_ok h
    obtain ⟨⟨st2, rs2⟩, h2, h⟩ := bind_eq_ok h
    cases h
    unfold Ledger.follow at hl
    split at hl
    · next l1 hl1 =>
      cases e with
      | init v => cases hl1
      | finalize => cases hl1
      | beginContext c =>
        cases hl1; cases h1
        exact ih ha hnd h2 hl
      | kernel =>
        cases hl1
        unfold Kokkos.step at h1
        obtain ⟨x, -, h1⟩ := bind_eq_ok h1
        cases h1
        exact ih ha hnd h2 hl
      | declareInput name id info a =>
        cases hl1
        unfold Kokkos.step at h1
        obtain ⟨x, -, h1⟩ := bind_eq_ok h1
        cases h1
        refine ih (st := _) ?_ hnd h2 hl
        exact ha.congr rfl rfl rfl fun _ => rfl
      | declareOutput name id info a =>
        cases hl1
        unfold Kokkos.step at h1
        obtain ⟨x, -, h1⟩ := bind_eq_ok h1
        cases h1
        refine ih (st := _) ?_ hnd h2 hl
        exact ha.congr rfl rfl rfl fun _ => rfl
      | request c cv tv g =>
        unfold Ledger.next at hl1
        simp only at hl1
        split at hl1
        · cases hl1
        next hopen =>
        cases hl1
        unfold Kokkos.step at h1
        obtain ⟨⟨st3, sent⟩, h3, h1⟩ := bind_eq_ok h1
        cases h1
        obtain ⟨hn1, hn2⟩ := List.nodup_cons.1 hnd
        refine ih (ha.request hn1 h3 fun o ho e => hopen ?_) hn2 h2 hl
        simp only [List.any_eq_true, decide_eq_true_eq]
        exact ⟨o, ho, e⟩
      | endContext c stop a =>
        unfold Kokkos.step at h1
        obtain ⟨st3, h3, h1⟩ := bind_eq_ok h1
        cases h1
        unfold Ledger.next at hl1
        simp only at hl1
        split at hl1
        · next hopen =>
          split at hl1
          · cases hl1
          next o os hos =>
          split at hl1
          · next hid =>
            cases hl1
            subst hid
            exact ih (ha.ends hos h3) hnd h2 hl
          · cases hl1
        · next hopen =>
          cases hl1
          have : Kokkos.look st.contexts c = none := by
            cases hc : Kokkos.look st.contexts c with
            | none => rfl
            | some x =>
              obtain ⟨o, ho, e⟩ := ha.contexts c x hc
              exact absurd (by simp only [List.any_eq_true, decide_eq_true_eq]; exact ⟨o, ho, e⟩) hopen
          unfold Kokkos.endContext at h3
          rw [this] at h3
          cases h3
          exact ih ha hnd h2 hl
    · cases hl

/-- A state with nothing in it, as when the connector is loaded. -/
def Kokkos.State.IsLoaded (st : Kokkos.State) : Prop := st.stack = [] ∧ st.contexts = [] ∧ st.tuners = []

theorem loaded_run {st st' : Kokkos.State} {v : Nat} {es : List Kokkos.Event} {rs : List Kokkos.Reply} {l : Ledger}
    (h0 : Kokkos.State.IsLoaded st) (hnd : (tunerAddresses es).Nodup)
    (h : Kokkos.run ops toInt jen little mk st (.init v :: es) = .ok (st', rs)) (hl : Ledger.follow ⟨[], []⟩ es = some l) :
    Kokkos.Agrees l st' [] := by
  unfold Kokkos.run at h
  obtain ⟨⟨st1, r⟩, h1, h⟩ := bind_eq_ok h
  obtain ⟨⟨st2, rs2⟩, h2, h⟩ := bind_eq_ok h
  cases h
  unfold Kokkos.step at h1
  obtain ⟨st3, h3, h1⟩ := bind_eq_ok h1
  cases h1
  unfold Kokkos.initLibrary at h3
  split at h3
  · cases h3
  · cases h3
    obtain ⟨h4, h5, h6⟩ := h0
    refine agrees_run (st := _) ?_ hnd h2 hl
    exact Kokkos.Agrees.empty _ _ (by simp [h4]) h5 h6

/-! ## C115: fences -/

/-- **C115** After any properly nested callbacks, kernels are fenced when, and only when, some open context is being measured.
(The callbacks may be any prefix of those of a program, so this is about every kernel of a program.) -/
theorem C115_fence_partial {st st' : Kokkos.State} {v : Nat} {es : List Kokkos.Event} {rs : List Kokkos.Reply} {l : Ledger}
    (h0 : Kokkos.State.IsLoaded st) (hnd : (tunerAddresses es).Nodup)
    (h : Kokkos.run ops toInt jen little mk st (.init v :: es) = .ok (st', rs)) (hl : Ledger.follow ⟨[], []⟩ es = some l) :
    Kokkos.step ops toInt jen little mk st' .kernel = .ok (st', .fence l.measuring) := by
  have ha := loaded_run h0 hnd h hl
  have hs := ha.stack
  simp only [Kokkos.step, Kokkos.invokeFence]
  cases ho : l.opened with
  | nil => rw [ho] at hs; simp [hs, Kokkos.statuses, Ledger.measuring, ho]
  | cons o os => rw [ho] at hs; simp only [hs, Kokkos.statuses, Ledger.measuring, ho]; simp

/-- **C115** In particular there is no fence when no context is open. -/
theorem C115_no_fence_outside_partial {st st' : Kokkos.State} {v : Nat} {es : List Kokkos.Event} {rs : List Kokkos.Reply} {l : Ledger}
    (h0 : Kokkos.State.IsLoaded st) (hnd : (tunerAddresses es).Nodup)
    (h : Kokkos.run ops toInt jen little mk st (.init v :: es) = .ok (st', rs)) (hl : Ledger.follow ⟨[], []⟩ es = some l)
    (hout : l.opened = []) : Kokkos.step ops toInt jen little mk st' .kernel = .ok (st', .fence false) := by
  rw [C115_fence_partial h0 hnd h hl]
  simp [Ledger.measuring, hout]

/-- **C115** fails: before the initialization, a kernel reads an empty stack. -/
theorem C115_before_init {st : Kokkos.State} (h0 : Kokkos.State.IsLoaded st) :
    Kokkos.step ops toInt jen little mk st .kernel = .ub := by
  simp [Kokkos.step, Kokkos.invokeFence, h0.1]

/-- **C115** fails: after a context that asks for values twice before its end, and is measured, kernels are fenced although the
context is no longer open. -/
theorem C115_twice {st st1 st2 st3 : Kokkos.State} {c : Nat} {cv tv cv' tv' : List Kokkos.Var} {g g' : Kokkos.Supply} {s s' : List Kokkos.Raw}
    {stop : Kokkos.Timespec} {e : BitVec 64} {x : Kokkos.Open}
    (h1 : Kokkos.requestValues ops jen little mk st c cv tv g = .ok (st1, s)) (hx : Kokkos.look st1.contexts c = some x)
    (hm : x.converged = false)
    (h2 : Kokkos.requestValues ops jen little mk st1 c cv' tv' g' = .ok (st2, s'))
    (h3 : Kokkos.endContext ops jen little st2 c stop e = .ok st3) :
    Kokkos.look st3.contexts c = none ∧ Kokkos.step ops toInt jen little mk st3 .kernel = .ok (st3, .fence true) := by
  obtain ⟨t1, r1, x1, -, a2, a3⟩ := Kokkos.request_effect h1
  obtain ⟨t2, r2, x2, b1, b2, b3⟩ := Kokkos.request_effect h2
  rw [a3, Kokkos.look_put, if_pos rfl] at hx
  cases hx
  obtain ⟨c1, c2⟩ := Kokkos.end_effect (x := x2) h3 (by rw [b3, Kokkos.look_put, if_pos rfl]) b2
  rw [hm, Bool.and_false] at a2
  refine ⟨by rw [c2, Kokkos.look_drop, if_pos rfl], ?_⟩
  simp [Kokkos.step, Kokkos.invokeFence, c1, a2]

/-- **C115** fails: when a converged context ends before a measured one that it contains, kernels of the measured one are not fenced. -/
theorem C115_wrong_order {st st1 st2 st3 : Kokkos.State} {c d : Nat} {cv tv cv' tv' : List Kokkos.Var} {g g' : Kokkos.Supply}
    {s s' : List Kokkos.Raw} {stop : Kokkos.Timespec} {e : BitVec 64} {x y : Kokkos.Open} {rest : List Bool} (hcd : c ≠ d)
    (h0 : st.stack = true :: rest)
    (h1 : Kokkos.requestValues ops jen little mk st c cv tv g = .ok (st1, s)) (hx : Kokkos.look st1.contexts c = some x)
    (hm : x.converged = true)
    (h2 : Kokkos.requestValues ops jen little mk st1 d cv' tv' g' = .ok (st2, s')) (hy : Kokkos.look st2.contexts d = some y)
    (hm' : y.converged = false)
    (h3 : Kokkos.endContext ops jen little st2 c stop e = .ok st3) :
    (∃ y, Kokkos.look st3.contexts d = some y ∧ y.converged = false) ∧
      Kokkos.step ops toInt jen little mk st3 .kernel = .ok (st3, .fence false) := by
  obtain ⟨t1, r1, x1, a1, a2, a3⟩ := Kokkos.request_effect h1
  obtain ⟨t2, r2, x2, b1, b2, b3⟩ := Kokkos.request_effect h2
  rw [h0] at a1
  cases a1
  have hx' := hx
  rw [a3, Kokkos.look_put, if_pos rfl] at hx
  cases hx
  obtain ⟨c1, c2⟩ := Kokkos.end_effect (x := x) h3 (by rw [b3, Kokkos.look_put, if_neg hcd]; exact hx') b2
  rw [hm, Bool.and_true] at a2
  refine ⟨⟨y, by rw [c2, Kokkos.look_drop, if_neg (Ne.symm hcd)]; exact hy, hm'⟩, ?_⟩
  simp [Kokkos.step, Kokkos.invokeFence, c1, a2]

/-! ## C116: evaluations -/

/-- **C116** Each region has as many evaluations as its contexts that were measured: one for each context that ended, until there were
500. -/
theorem C116_history_partial {st st' : Kokkos.State} {v : Nat} {es : List Kokkos.Event} {rs : List Kokkos.Reply} {l : Ledger}
    (h0 : Kokkos.State.IsLoaded st) (hnd : (tunerAddresses es).Nodup)
    (h : Kokkos.run ops toInt jen little mk st (.init v :: es) = .ok (st', rs)) (hl : Ledger.follow ⟨[], []⟩ es = some l)
    {ids tids : List Nat} {t : BitVec 64} {c : Bool} (ht : Kokkos.look st'.tuners (Kokkos.regionId ids tids) = some (t, c)) :
    (st'.regions t).tuner.getFeaturesHistory little st'.feats st'.evals 0#64 none true = .ok (none, some (l.count (ids ++ tids))) := by
  obtain ⟨h1, -, -⟩ := (loaded_run h0 hnd h hl).tuners _ _ _ ht
  rw [Kokkos.count_key]
  simp only [Tuner.getFeaturesHistory, selected, listing, if_true, h1]
  rfl

/-- No context is opened in another one of its region. -/
def Unnested (l : Ledger) : List Kokkos.Event → Prop
  | [] => True
  | e :: es => (match e with
      | .request _ cv tv _ => ∀ o ∈ l.opened, ¬ SameRegion o.vars (requestVars cv tv)
      | _ => True) ∧ ∀ l', l.next e = some l' → Unnested l' es

theorem sameRegion_symm {a b : List Nat} (h : SameRegion a b) : SameRegion b a := ⟨h.2, h.1⟩

theorem sameRegion_trans {a b c : List Nat} (h : SameRegion a b) (h' : SameRegion b c) : SameRegion a c :=
  ⟨fun x hx => h'.1 x (h.1 x hx), fun x hx => h.2 x (h'.2 x hx)⟩

theorem sameRegion_refl (a : List Nat) : SameRegion a a := ⟨fun _ h => h, fun _ h => h⟩

/-- Open contexts are of different regions, and those that are measured leave room for one evaluation. -/
structure Roomy (l : Ledger) : Prop where
  different : l.opened.Pairwise fun o o' => ¬ SameRegion o.vars o'.vars
  count : ∀ vars, l.count vars ≤ 500
  room : ∀ o ∈ l.opened, o.measured = true → l.count o.vars < 500

theorem roomy_next {l l' : Ledger} {e : Kokkos.Event} (hr : Roomy l) (hu : match e with
      | .request _ cv tv _ => ∀ o ∈ l.opened, ¬ SameRegion o.vars (requestVars cv tv)
      | _ => True) (h : l.next e = some l') : Roomy l' := by
  cases e with
  | init v => cases h
  | finalize => cases h
  | beginContext c => cases h; exact hr
  | kernel => cases h; exact hr
  | declareInput name id info a => cases h; exact hr
  | declareOutput name id info a => cases h; exact hr
  | request c cv tv g =>
    unfold Ledger.next at h
    simp only at h hu
    split at h
    · cases h
    · cases h
      refine ⟨List.pairwise_cons.2 ⟨fun o ho hs => hu o ho (sameRegion_symm hs), hr.different⟩, hr.count, fun o ho hm => ?_⟩
      rcases List.mem_cons.1 ho with rfl | ho
      · exact of_decide_eq_true hm
      · exact hr.room o ho hm
  | endContext c stop a =>
    unfold Ledger.next at h
    simp only at h
    split at h
    · split at h
      · cases h
      next o os hos =>
      split at h
      · next hid =>
        cases h
        have hd := hr.different
        have hroom := hr.room
        rw [hos] at hd hroom
        obtain ⟨h1, h2⟩ := List.pairwise_cons.1 hd
        cases hm : o.measured with
        | false =>
          simp only [Bool.false_eq_true, if_false]
          exact ⟨h2, hr.count, fun o' ho' => hroom o' (List.mem_cons_of_mem _ ho')⟩
        | true =>
          simp only [if_true]
          have hc : ∀ vars, Ledger.count ⟨os, o.vars :: l.done⟩ vars = l.count vars + if SameRegion o.vars vars then 1 else 0 := by
            intro vars
            unfold Ledger.count
            simp only [List.filter_cons]
            by_cases h9 : SameRegion o.vars vars <;> simp [h9]
          refine ⟨h2, fun vars => ?_, fun o' ho' hm' => ?_⟩
          · rw [hc]
            split
            · next hs =>
              have h3 := hroom o (by simp) hm
              have : l.count vars = l.count o.vars := by
                unfold Ledger.count
                congr 2
                funext d
                simp only [decide_eq_decide]
                exact ⟨fun h => sameRegion_trans h (sameRegion_symm hs), fun h => sameRegion_trans h hs⟩
              omega
            · exact hr.count vars
          · rw [hc, if_neg (h1 o' ho')]
            exact hroom o' (List.mem_cons_of_mem _ ho') hm'
      · cases h
    · cases h; exact hr

theorem roomy_follow {l l' : Ledger} {es : List Kokkos.Event} (hr : Roomy l) (hu : Unnested l es) (h : l.follow es = some l') : Roomy l' := by
  induction es generalizing l with
  | nil => cases h; exact hr
  | cons e es ih =>
    unfold Ledger.follow at h
    split at h
    · next l1 h1 => exact ih (roomy_next hr hu.1 h1) (hu.2 l1 h1) h
    · cases h

/-- **C116** When no context is opened in another one of the same region, no region has more than 500 evaluations. -/
theorem C116_bound_partial {st st' : Kokkos.State} {v : Nat} {es : List Kokkos.Event} {rs : List Kokkos.Reply} {l : Ledger}
    (h0 : Kokkos.State.IsLoaded st) (hnd : (tunerAddresses es).Nodup) (hu : Unnested ⟨[], []⟩ es)
    (h : Kokkos.run ops toInt jen little mk st (.init v :: es) = .ok (st', rs)) (hl : Ledger.follow ⟨[], []⟩ es = some l)
    {ids tids : List Nat} {t : BitVec 64} {c : Bool} (ht : Kokkos.look st'.tuners (Kokkos.regionId ids tids) = some (t, c)) :
    ∃ n, n ≤ 500 ∧ (st'.regions t).tuner.getFeaturesHistory little st'.feats st'.evals 0#64 none true = .ok (none, some n) :=
  ⟨_, (roomy_follow ⟨.nil, by simp [Ledger.count], by simp⟩ hu hl).count (ids ++ tids), C116_history_partial h0 hnd h hl ht⟩

/-! ## C117: regions -/

/-- **C117** Open contexts have the same tuner exactly when their requests had the same variables, in whatever order. -/
theorem C117_same_tuner_partial {st st' : Kokkos.State} {v : Nat} {es : List Kokkos.Event} {rs : List Kokkos.Reply} {l : Ledger}
    (h0 : Kokkos.State.IsLoaded st) (hnd : (tunerAddresses es).Nodup)
    (h : Kokkos.run ops toInt jen little mk st (.init v :: es) = .ok (st', rs)) (hl : Ledger.follow ⟨[], []⟩ es = some l)
    {o o' : Opened} (ho : o ∈ l.opened) (ho' : o' ∈ l.opened) :
    ∃ x y, Kokkos.look st'.contexts o.id = some x ∧ Kokkos.look st'.contexts o'.id = some y ∧
      (x.tuner = y.tuner ↔ SameRegion o.vars o'.vars) := by
  have ha := loaded_run h0 hnd h hl
  obtain ⟨x, c, h1, -, h2⟩ := ha.opened o ho
  obtain ⟨y, c', h3, -, h4⟩ := ha.opened o' ho'
  refine ⟨x, y, h1, h3, ?_⟩
  rw [← Kokkos.uniqNat_eq_iff]
  constructor
  · intro e
    exact ha.distinct _ _ _ _ _ h2 (e ▸ h4)
  · intro e
    rw [e, h4] at h2
    simp only [Option.some.injEq, Prod.mk.injEq] at h2
    exact h2.1.symm

theorem request_tuners {st st' : Kokkos.State} {cid : Nat} {cv tv : List Kokkos.Var} {g : Kokkos.Supply} {sent : List Kokkos.Raw}
    (h : Kokkos.requestValues ops jen little mk st cid cv tv g = .ok (st', sent)) {k : List Nat} {t : BitVec 64} {c : Bool}
    (hk : Kokkos.look st.tuners k = some (t, c)) : ∃ c', Kokkos.look st'.tuners k = some (t, c') ∧ (c = true → c' = true) := by
  obtain ⟨st1, st2, t0, c0, c1, top, rest, f, s, sug, st4, cfg, vs, h1, h2, -, -, -, h5, -, -, rfl⟩ := Kokkos.request_ok h
  have e4 : st4.tuners = st2.tuners := by
    rcases Kokkos.keepConfiguration_ok h5 with ⟨-, rfl⟩ | ⟨vs, -, -, rfl⟩ <;> rfl
  have e1 : Kokkos.look st1.tuners k = some (t, c) ∧
      (k = Kokkos.regionId (cv.map (·.id)) (tv.map (·.id)) → t0 = t ∧ c0 = c) := by
    rcases Kokkos.findTuner_ok h1 with ⟨h6, rfl⟩ | ⟨h6, -, -, cs, fs, p, -, -, -, rfl⟩
    · refine ⟨hk, fun e => ?_⟩
      rw [e, h6] at hk
      cases hk
      exact ⟨rfl, rfl⟩
    · have : k ≠ Kokkos.regionId (cv.map (·.id)) (tv.map (·.id)) := fun e => by rw [e, h6] at hk; cases hk
      refine ⟨?_, fun e => absurd e this⟩
      simp only [Kokkos.look_put]
      rw [if_neg this]
      exact hk
  simp only [e4]
  rcases (Kokkos.testConvergence_ok h2).2 with ⟨rfl, -⟩ | ⟨-, rfl⟩
  · exact ⟨c, e1.1, id⟩
  · simp only [Kokkos.look_put]
    split
    · next e => exact ⟨true, by rw [(e1.2 e).1], fun _ => rfl⟩
    · exact ⟨c, e1.1, id⟩

/-- **C117** A region keeps its tuner, and once it has converged it stays so, until the library is finalized. -/
theorem C117_kept {st st' : Kokkos.State} {es : List Kokkos.Event} {rs : List Kokkos.Reply}
    (h : Kokkos.run ops toInt jen little mk st es = .ok (st', rs)) (hf : Kokkos.Event.finalize ∉ es)
    {k : List Nat} {t : BitVec 64} {c : Bool} (hk : Kokkos.look st.tuners k = some (t, c)) :
    ∃ c', Kokkos.look st'.tuners k = some (t, c') ∧ (c = true → c' = true) := by
  induction es generalizing st rs c with
  | nil => cases h; exact ⟨c, hk, id⟩
  | cons e es ih =>
    unfold Kokkos.run at h
    obtain ⟨⟨st1, r⟩, h1, h⟩ := bind_eq_ok h
    obtain ⟨⟨st2, rs2⟩, h2, h⟩ := bind_eq_ok h
    cases h
    simp only [List.mem_cons, not_or] at hf
    have : ∃ c', Kokkos.look st1.tuners k = some (t, c') ∧ (c = true → c' = true) := by
      cases e with
      | finalize => exact absurd rfl hf.1
      | beginContext cid => cases h1; exact ⟨c, hk, id⟩
      | init v =>
        obtain ⟨x, h3, h1⟩ := bind_eq_ok h1
        cases h1
        unfold Kokkos.initLibrary at h3
        split at h3
        · cases h3
        · cases h3; exact ⟨c, hk, id⟩
      | kernel =>
        obtain ⟨x, -, h1⟩ := bind_eq_ok h1
        cases h1
        exact ⟨c, hk, id⟩
      | declareInput name id info a =>
        obtain ⟨x, -, h1⟩ := bind_eq_ok h1
        cases h1
        exact ⟨c, hk, fun h => h⟩
      | declareOutput name id info a =>
        obtain ⟨x, -, h1⟩ := bind_eq_ok h1
        cases h1
        exact ⟨c, hk, fun h => h⟩
      | request cid cv tv g =>
        obtain ⟨⟨x, sent⟩, h3, h1⟩ := bind_eq_ok h1
        cases h1
        exact request_tuners h3 hk
      | endContext cid stop a =>
        obtain ⟨x, h3, h1⟩ := bind_eq_ok h1
        cases h1
        refine ⟨c, ?_, id⟩
        unfold Kokkos.endContext at h3
        split at h3
        · cases h3; exact hk
        · split at h3
          · cases h3
          · split at h3
            · cases h3; exact hk
            · obtain ⟨ns, b, t, -, -, -, -, rfl⟩ := Kokkos.report_ok h3
              exact hk
    obtain ⟨c1, hk1, hc1⟩ := this
    obtain ⟨c2, hk2, hc2⟩ := ih h2 hf.2 hk1
    exact ⟨c2, hk2, fun h => hc2 (hc1 h)⟩

end

/-! ## Examples -/

/-- A distribution on three positions, taken in turn. -/
def exPick (id : Nat) (_ : Param) : Out Dist :=
  .ok ⟨BitVec.ofNat 64 id, 1, [⟨.int, 0#64, 3#64, 1#32, 0#32⟩],
    fun t k n => .ok [(List.range n).map fun i => BitVec.ofNat 64 ((t + k + i) % 3)]⟩

/-- The connector just loaded. -/
def exLoaded : Kokkos.State :=
  Kokkos.State.loaded (fun _ => createString []) (fun _ => ⟨Space.empty, 0#64, Ctx.empty, 0#64, Tuner.empty⟩) (fun _ => ObjSpace.empty)
    (fun _ => ⟨0#64, []⟩) (fun _ => []) (fun _ => ⟨⟨⟨0#64, []⟩, 0#64, 0#32⟩, 0#64⟩)

/-- What the host gives to the request number `n`. -/
def exSupply (n : Nat) : Kokkos.Supply where
  fspace := BitVec.ofNat 64 (1000 + 10 * n)
  ospace := BitVec.ofNat 64 (1001 + 10 * n)
  htime := BitVec.ofNat 64 (1002 + 10 * n)
  expression := ⟨BitVec.ofNat 64 (1006 + 10 * n), []⟩
  tuner := BitVec.ofNat 64 (1003 + 10 * n)
  features := BitVec.ofNat 64 (1004 + 10 * n)
  configuration := BitVec.ofNat 64 (1005 + 10 * n)
  draw := 0#64
  attempt := n
  clock := ⟨0#64, BitVec.ofNat 64 n⟩

/-- Variable 1 is tuned among 3, 5 and 7; variable 2 is given, 10 or 20. -/
def exDeclare : List Kokkos.Event :=
  [.declareOutput [65#8] 1 ⟨.int64, .ordinal, .set [.word 3#64, .word 5#64, .word 7#64]⟩ 1#64,
   .declareInput [66#8] 2 ⟨.int64, .ordinal, .set [.word 10#64, .word 20#64]⟩ 2#64]

/-- The end of context `c`, whose evaluation is that of request `n`. -/
def exEnd (c n : Nat) : Kokkos.Event := .endContext c ⟨0#64, 1000#64⟩ (BitVec.ofNat 64 (1007 + 10 * n))

/-- A context tuning variable 1 given variable 2, and inside a context that tunes variable 1 alone, with kernels in between. -/
def exTrace : List Kokkos.Event :=
  exDeclare ++ [.kernel, .request 0 [⟨2, .int64, .word 10#64⟩] [⟨1, .int64, .word 0#64⟩] (exSupply 0), .kernel,
    .request 1 [] [⟨1, .int64, .word 0#64⟩] (exSupply 1), .beginContext 1, .kernel, exEnd 1 1, .kernel, exEnd 0 0, .kernel]

/-- The replies of a program. -/
def exReplies (es : List Kokkos.Event) : Option (List Kokkos.Reply) :=
  match Kokkos.run ieee truncated (fun _ => 0#32) true exPick exLoaded (.init 20210225 :: es) with
  | .ok r => some r.2
  | _ => none

/-- The example meets the hypotheses of C115, C116 and C117, and these are its replies. -/
example : Kokkos.State.IsLoaded exLoaded ∧ (tunerAddresses exTrace).Nodup ∧
    Ledger.follow ⟨[], []⟩ exTrace = some ⟨[], [[2, 1], [1]]⟩ ∧
    exReplies exTrace = some [.nothing, .nothing, .nothing, .fence false, .values [.word 3#64], .fence true, .values [.word 5#64], .nothing,
      .fence true, .nothing, .fence true, .nothing, .fence false] :=
  ⟨⟨rfl, rfl, rfl⟩, by decide +kernel, by decide +kernel, by decide +kernel⟩

/-- No region of the example is opened in itself. -/
example : Unnested ⟨[], []⟩ exTrace := by
  simp [Unnested, exTrace, exDeclare, exEnd, Ledger.next, Ledger.count, requestVars, SameRegion]

/-- **C115** fails: context 0 asks twice; after its end the kernel is fenced although no context is open. -/
theorem C115_twice_happens :
    exReplies [.request 0 [] [] (exSupply 0), .request 0 [] [] (exSupply 1), exEnd 0 0, .kernel] =
      some [.nothing, .values [], .values [], .nothing, .fence true] := by decide +kernel

end CCS.Props
