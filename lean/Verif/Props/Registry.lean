/-
C128, C129: callbacks and data attached to objects from Python and Ruby.
-/
import Verif.Spec.Registry

namespace CCS.Props
open CCS.Py CCS.Py.Spec

/-- The callbacks of the user among the hooks. -/
private def users (hs : List Hook) : List Nat := hs.filterMap fun | .user t => some t.callback | .cleanup => none

/-- What the registry holds agrees with what the library points at. -/
private structure Kept (o : Obj) (d s : Option Nat) : Prop where
  data : o.data = d
  heldData : ∀ x, o.data = some x → ∃ e, o.entry = some e ∧ e.data = some x
  serializer : o.serializer.map (·.callback) = s
  heldSerializer : ∀ t, o.serializer = some t → ∃ e, o.entry = some e ∧ e.serializer = some t
  hooks : ∀ t, Hook.user t ∈ o.hooks → ∃ e, o.entry = some e ∧ t ∈ e.callbacks

private theorem known_of_some {o : Obj} {e : Entry} (h : o.entry = some e) : o.known = (o, e) := by
  unfold Obj.known; rw [h]

private theorem known_of_none {o : Obj} (h : o.entry = none) : o.known = (o.hook .cleanup, ⟨[], none, none, []⟩) := by
  unfold Obj.known; rw [h]

private theorem kept_setDestroy {o : Obj} {d s : Option Nat} (k : Kept o d s) (c : Nat) : Kept (o.setDestroy c) d s := by
  cases he : o.entry with
  | none =>
    have hd : o.data = none := by
      cases h : o.data with
      | none => rfl
      | some x => obtain ⟨e, h1, -⟩ := k.heldData x h; rw [he] at h1; cases h1
    have hs : o.serializer = none := by
      cases h : o.serializer with
      | none => rfl
      | some x => obtain ⟨e, h1, -⟩ := k.heldSerializer x h; rw [he] at h1; cases h1
    have hh : ∀ t, Hook.user t ∉ o.hooks := fun t h => by obtain ⟨e, h1, -⟩ := k.hooks t h; rw [he] at h1; cases h1
    have e1 : (o.hook (.user (o.thunk c))).entry = none := he
    have e : o.setDestroy c = ⟨o.hooks ++ [.user (o.thunk c)] ++ [.cleanup], o.data, o.serializer, o.remove,
        some ⟨[o.thunk c], none, none, []⟩, o.next + 1⟩ := by
      unfold Obj.setDestroy Obj.registerCallback
      rw [known_of_none e1]
      rfl
    rw [e]
    refine ⟨k.data, fun x hx => ?_, k.serializer, fun t ht => ?_, fun t ht => ?_⟩
    · have hx' : o.data = some x := hx
      rw [hd] at hx'; cases hx'
    · have ht' : o.serializer = some t := ht
      rw [hs] at ht'; cases ht'
    · refine ⟨_, rfl, ?_⟩
      simp only [List.append_assoc, List.cons_append, List.nil_append, List.mem_append, List.mem_cons, List.not_mem_nil, or_false,
        reduceCtorEq, Hook.user.injEq] at ht
      rcases ht with ht | ht
      · exact absurd ht (hh t)
      · simp [ht]
  | some en =>
    have e1 : (o.hook (.user (o.thunk c))).entry = some en := he
    have e : o.setDestroy c = ⟨o.hooks ++ [.user (o.thunk c)], o.data, o.serializer, o.remove,
        some { en with callbacks := en.callbacks ++ [o.thunk c] }, o.next + 1⟩ := by
      unfold Obj.setDestroy Obj.registerCallback
      rw [known_of_some e1]
      rfl
    rw [e]
    refine ⟨k.data, fun x hx => ?_, k.serializer, fun t ht => ?_, fun t ht => ?_⟩
    · obtain ⟨e', h1, h2⟩ := k.heldData x hx
      rw [he] at h1; cases h1
      exact ⟨_, rfl, h2⟩
    · obtain ⟨e', h1, h2⟩ := k.heldSerializer t ht
      rw [he] at h1; cases h1
      exact ⟨_, rfl, h2⟩
    · refine ⟨_, rfl, ?_⟩
      simp only [List.mem_append, List.mem_cons, List.not_mem_nil, or_false, Hook.user.injEq] at ht
      rcases ht with ht | ht
      · obtain ⟨e', h1, h2⟩ := k.hooks t ht
        rw [he] at h1; cases h1
        simp [h2]
      · simp [ht]

/-- Registering something else than a destroy callback. -/
private theorem kept_register {o : Obj} {d s : Option Nat} (k : Kept o d s) (d' s' : Option Nat) (t' : Option Thunk) (n : Nat)
    (f : Entry → Entry) (hcb : ∀ e, (f e).callbacks = e.callbacks)
    (hd : ∀ e, (∀ x, o.data = some x → e.data = some x) → ∀ x, d' = some x → (f e).data = some x)
    (hs : t'.map (·.callback) = s')
    (hs' : ∀ e, (∀ x, o.serializer = some x → e.serializer = some x) → ∀ x, t' = some x → (f e).serializer = some x) :
    Kept ({ o.known.1 with data := d', serializer := t', entry := some (f o.known.2), next := n } : Obj) d' s' := by
  cases he : o.entry with
  | none =>
    have hd0 : ∀ x, o.data ≠ some x := fun x h => by
      obtain ⟨e, h1, -⟩ := k.heldData x h; rw [he] at h1; cases h1
    have hs0 : ∀ x, o.serializer ≠ some x := fun x h => by
      obtain ⟨e, h1, -⟩ := k.heldSerializer x h; rw [he] at h1; cases h1
    rw [known_of_none he]
    refine ⟨rfl, fun x hx => ⟨_, rfl, hd _ (fun y hy => absurd hy (hd0 y)) x hx⟩, hs,
      fun t ht => ⟨_, rfl, hs' _ (fun y hy => absurd hy (hs0 y)) t ht⟩, fun t ht => ?_⟩
    have ht' : Hook.user t ∈ o.hooks ++ [.cleanup] := ht
    simp only [List.mem_append, List.mem_cons, List.not_mem_nil, or_false, reduceCtorEq] at ht'
    obtain ⟨e, h1, -⟩ := k.hooks t ht'
    rw [he] at h1; cases h1
  | some en =>
    rw [known_of_some he]
    refine ⟨rfl, fun x hx => ⟨_, rfl, hd _ (fun y hy => ?_) x hx⟩, hs, fun t ht => ⟨_, rfl, hs' _ (fun y hy => ?_) t ht⟩,
      fun t ht => ?_⟩
    · obtain ⟨e', h1, h2⟩ := k.heldData y hy
      rw [he] at h1; cases h1; exact h2
    · obtain ⟨e', h1, h2⟩ := k.heldSerializer y hy
      rw [he] at h1; cases h1; exact h2
    · obtain ⟨e', h1, h2⟩ := k.hooks t ht
      rw [he] at h1; cases h1
      exact ⟨_, rfl, by rw [hcb]; exact h2⟩

private theorem setData_eq (o : Obj) (d : Option Nat) : o.setData d =
    { o.known.1 with data := d, serializer := o.serializer, entry := some { o.known.2 with data := d }, next := o.next } := by
  unfold Obj.setData Obj.registerData Obj.known
  cases o.entry <;> rfl

private theorem setSerializer_eq (o : Obj) (c : Option Nat) : o.setSerializer c =
    { o.known.1 with data := o.data, serializer := c.map o.thunk, entry := some { o.known.2 with serializer := c.map o.thunk },
                     next := o.next + 1 } := by
  unfold Obj.setSerializer Obj.registerSerializer Obj.known
  cases o.entry <;> rfl

private theorem registerString_eq (o : Obj) (x : Nat) : o.registerString x =
    { o.known.1 with data := o.data, serializer := o.serializer, entry := some { o.known.2 with strings := o.known.2.strings ++ [x] },
                     next := o.next } := by
  unfold Obj.registerString Obj.known
  cases o.entry <;> rfl

private theorem kept_setData {o : Obj} {d s : Option Nat} (k : Kept o d s) (d' : Option Nat) : Kept (o.setData d') d' s := by
  rw [setData_eq]
  exact kept_register k d' s o.serializer o.next (fun e => { e with data := d' }) (fun _ => rfl) (fun _ _ _ hx => hx) k.serializer
    (fun _ h x hx => h x hx)

private theorem kept_setSerializer {o : Obj} {d s : Option Nat} (k : Kept o d s) (c : Option Nat) : Kept (o.setSerializer c) d c := by
  rw [setSerializer_eq]
  have := kept_register k o.data c (c.map o.thunk) (o.next + 1) (fun e => { e with serializer := c.map o.thunk }) (fun _ => rfl)
    (fun _ h x hx => h x hx) (by cases c <;> rfl) (fun _ _ _ hx => hx)
  rwa [k.data] at this ⊢

private theorem kept_string {o : Obj} {d s : Option Nat} (k : Kept o d s) (x : Nat) : Kept (o.registerString x) d s := by
  rw [registerString_eq]
  have := kept_register k o.data s o.serializer o.next (fun e => { e with strings := e.strings ++ [x] }) (fun _ => rfl)
    (fun _ h x hx => h x hx) k.serializer (fun _ h x hx => h x hx)
  rwa [k.data] at this ⊢

private theorem kept_run : ∀ (ops : List Op) {o : Obj} {d s : Option Nat}, Kept o d s →
    ∃ o' d' s', o.run ops = .ok (o', answers d s ops) ∧ Kept o' d' s'
  | [], o, d, s, k => ⟨o, d, s, rfl, k⟩
  | op :: ops, o, d, s, k => by
    have next : ∀ {o1 : Obj} {d1 s1 : Option Nat} {a : Answer}, o.step op = .ok (o1, a) → Kept o1 d1 s1 →
        answers d s (op :: ops) = a :: answers d1 s1 ops →
        ∃ o' d' s', o.run (op :: ops) = .ok (o', answers d s (op :: ops)) ∧ Kept o' d' s' := by
      intro o1 d1 s1 a h1 k1 ha
      obtain ⟨o', d', s', h2, k2⟩ := kept_run ops k1
      refine ⟨o', d', s', ?_, k2⟩
      rw [Obj.run, h1, ha]
      show (o1.run ops >>= fun y => Out.ok (y.1, a :: y.2)) = _
      rw [h2]
      rfl
    cases op with
    | setDestroy c => exact next rfl (kept_setDestroy k c) rfl
    | setData d' => exact next rfl (kept_setData k d') rfl
    | setSerializer c => exact next rfl (kept_setSerializer k c) rfl
    | keepString x => exact next rfl (kept_string k x) rfl
    | getData =>
      refine next (o1 := o) (a := .data d) ?_ k rfl
      show (o.getData >>= fun a => Out.ok (o, a)) = _
      have : o.getData = .ok (.data d) := by
        unfold Obj.getData
        rw [← k.data]
        cases hd : o.data with
        | none => rfl
        | some x =>
          obtain ⟨e, h1, h2⟩ := k.heldData x hd
          simp only [h1, Option.bind_some, h2, if_true]
      rw [this]; rfl
    | serialize =>
      refine next (o1 := o) (a := .called (if d.isSome then s else none)) ?_ k rfl
      show (o.callSerializer >>= fun a => Out.ok (o, a)) = _
      have : o.callSerializer = .ok (.called (if d.isSome then s else none)) := by
        unfold Obj.callSerializer
        rw [← k.data, ← k.serializer]
        cases hd : o.data with
        | none => rfl
        | some x =>
          cases hs : o.serializer with
          | none => rfl
          | some t =>
            obtain ⟨e, h1, h2⟩ := k.heldSerializer t hs
            have : o.alive t = true := by unfold Obj.alive; rw [h1]; simp [h2]
            simp [this]
      rw [this]; rfl

private theorem kept_fresh : Kept fresh none none :=
  ⟨rfl, (fun x h => by cases h), rfl, (fun x h => by cases h), fun t h => by cases h⟩

/-- A user defined object, as it is created. -/
private def made (delete : Nat) : Obj :=
  { fresh with remove := some ⟨0, delete⟩, next := 1, entry := some ⟨[⟨0, delete⟩], none, none, []⟩ }

private theorem create_eq (delete : Nat) : create delete = .ok (made delete) := rfl

private theorem kept_made (delete : Nat) : Kept (made delete) none none :=
  ⟨rfl, (fun x h => by cases h), rfl, (fun x h => by cases h), fun t h => by cases h⟩

/-- **C128** Whatever a program attaches to an object, in any order and any number of times: reading the data gives what was last
attached, writing the object calls the serialization callback last set, and neither of them uses anything that was freed. -/
theorem C128_used_alive (ops : List Op) :
    (∃ o, fresh.run ops = .ok (o, answers none none ops)) ∧
    ∀ delete, ∃ o o', create delete = .ok o ∧ o.run ops = .ok (o', answers none none ops) := by
  refine ⟨?_, fun delete => ?_⟩
  · obtain ⟨o, _, _, h, -⟩ := kept_run ops kept_fresh
    exact ⟨o, h⟩
  · obtain ⟨o, _, _, h, -⟩ := kept_run ops (kept_made delete)
    exact ⟨_, o, create_eq delete, h⟩

example : answers none none [.setData (some 4), .getData, .setSerializer (some 7), .serialize, .setData none, .getData, .serialize] =
    [.done, .data (some 4), .done, .called (some 7), .done, .data none, .called none] := by decide

/-! ### Destruction -/

/-- The hooks are callbacks of the user, and these are they. -/
private def AreUsers (us : List Hook) (cs : List Nat) : Prop := ∃ ts : List Thunk, us = ts.map Hook.user ∧ ts.map (·.callback) = cs

private theorem areUsers_nil : AreUsers [] [] := ⟨[], rfl, rfl⟩

private theorem areUsers_cons {us : List Hook} {cs : List Nat} (t : Thunk) (h : AreUsers us cs) :
    AreUsers (.user t :: us) (t.callback :: cs) := by
  obtain ⟨ts, rfl, rfl⟩ := h
  exact ⟨t :: ts, rfl, rfl⟩

/-- Once the object is in the registry, only callbacks of the user are added. -/
private theorem run_known : ∀ (ops : List Op) {o o' : Obj} {as : List Answer}, o.entry.isSome → o.run ops = .ok (o', as) →
    (∃ us, o'.hooks = o.hooks ++ us ∧ AreUsers us (destroyCallbacks ops)) ∧ o'.entry.isSome ∧ o'.remove = o.remove ∧
      ∀ e t, o.entry = some e → t ∈ e.callbacks → ∃ e', o'.entry = some e' ∧ t ∈ e'.callbacks
  | [], o, o', as, he, h => by
    cases h
    exact ⟨⟨[], by simp, areUsers_nil⟩, he, rfl, fun e t h1 h2 => ⟨e, h1, h2⟩⟩
  | op :: ops, o, o', as, he, h => by
    obtain ⟨en, he⟩ := Option.isSome_iff_exists.1 he
    rw [Obj.run] at h
    have next : ∀ {o1 : Obj} {a : Answer}, o.step op = .ok (o1, a) → o1.entry.isSome → o1.remove = o.remove →
        (∀ t, t ∈ en.callbacks → ∃ e', o1.entry = some e' ∧ t ∈ e'.callbacks) →
        ∀ us0 cs0, o1.hooks = o.hooks ++ us0 → (∀ us cs, AreUsers us cs → AreUsers (us0 ++ us) (cs0 ++ cs)) →
        destroyCallbacks (op :: ops) = cs0 ++ destroyCallbacks ops →
        (∃ us, o'.hooks = o.hooks ++ us ∧ AreUsers us (destroyCallbacks (op :: ops))) ∧ o'.entry.isSome ∧ o'.remove = o.remove ∧
          ∀ e t, o.entry = some e → t ∈ e.callbacks → ∃ e', o'.entry = some e' ∧ t ∈ e'.callbacks := by
      intro o1 a h1 h2 h3 h4 us0 cs0 h5 h6 h7
      rw [h1] at h
      have h' : (o1.run ops >>= fun y => Out.ok (y.1, a :: y.2)) = .ok (o', as) := h
      cases hr : o1.run ops with
      | ok y =>
        rw [hr] at h'
        have h'' : (y.1, a :: y.2) = (o', as) := Out.ok.inj h'
        obtain ⟨rfl, -⟩ := Prod.mk.inj h''
        obtain ⟨⟨us, g1, g2⟩, g3, g4, g5⟩ := run_known ops h2 hr
        refine ⟨⟨us0 ++ us, by rw [g1, h5, List.append_assoc], by rw [h7]; exact h6 _ _ g2⟩, g3, g4.trans h3, fun e t q1 q2 => ?_⟩
        rw [he] at q1; cases q1
        obtain ⟨e', q3, q4⟩ := h4 t q2
        exact g5 e' t q3 q4
      | err e => rw [hr] at h'; cases h'
      | ub => rw [hr] at h'; cases h'
    cases op with
    | setDestroy c =>
      have e1 : (o.hook (.user (o.thunk c))).entry = some en := he
      have e : o.setDestroy c = ⟨o.hooks ++ [.user (o.thunk c)], o.data, o.serializer, o.remove,
          some { en with callbacks := en.callbacks ++ [o.thunk c] }, o.next + 1⟩ := by
        unfold Obj.setDestroy Obj.registerCallback
        rw [known_of_some e1]
        rfl
      refine next (o1 := o.setDestroy c) rfl (by rw [e]; rfl) (by rw [e]) (fun t ht => ⟨_, by rw [e], by simp [ht]⟩)
        [.user (o.thunk c)] [c] (by rw [e]) (fun us cs hu => areUsers_cons _ hu) rfl
    | setData d =>
      refine next (o1 := o.setData d) rfl ?_ ?_ (fun t ht => ⟨{ en with data := d }, ?_, ht⟩) [] [] ?_ (fun us cs hu => hu) rfl <;>
        rw [setData_eq, known_of_some he] <;> simp
    | setSerializer c =>
      refine next (o1 := o.setSerializer c) rfl ?_ ?_ (fun t ht => ⟨{ en with serializer := c.map o.thunk }, ?_, ht⟩) [] [] ?_
        (fun us cs hu => hu) rfl <;>
        rw [setSerializer_eq, known_of_some he] <;> simp
    | keepString x =>
      refine next (o1 := o.registerString x) rfl ?_ ?_ (fun t ht => ⟨{ en with strings := en.strings ++ [x] }, ?_, ht⟩) [] [] ?_
        (fun us cs hu => hu) rfl <;>
        rw [registerString_eq, known_of_some he] <;> simp
    | getData =>
      cases hg : o.getData with
      | ok a =>
        exact next (o1 := o) (a := a) (by show (o.getData >>= _) = _; rw [hg]; rfl) (by rw [he]; rfl) rfl
          (fun t ht => ⟨en, he, ht⟩) [] [] (by simp) (fun us cs hu => hu) rfl
      | err e => exfalso; rw [show o.step .getData = .err e by show (o.getData >>= _) = _; rw [hg]; rfl] at h; cases h
      | ub => exfalso; rw [show o.step .getData = .ub by show (o.getData >>= _) = _; rw [hg]; rfl] at h; cases h
    | serialize =>
      cases hg : o.callSerializer with
      | ok a =>
        exact next (o1 := o) (a := a) (by show (o.callSerializer >>= _) = _; rw [hg]; rfl) (by rw [he]; rfl) rfl
          (fun t ht => ⟨en, he, ht⟩) [] [] (by simp) (fun us cs hu => hu) rfl
      | err e => exfalso; rw [show o.step .serialize = .err e by show (o.callSerializer >>= _) = _; rw [hg]; rfl] at h; cases h
      | ub => exfalso; rw [show o.step .serialize = .ub by show (o.callSerializer >>= _) = _; rw [hg]; rfl] at h; cases h

/-- Callbacks of the user that are alive are called in turn. -/
private theorem fire_users {o : Obj} (rest : List Hook) : ∀ (ts : List Thunk), (∀ t ∈ ts, o.alive t = true) →
    o.fire (ts.map Hook.user ++ rest) = o.fire rest >>= fun x => .ok (x.1, ts.map (·.callback) ++ x.2)
  | [], _ => by
    show o.fire rest = _
    cases o.fire rest <;> rfl
  | t :: ts, h => by
    show (if o.alive t then o.fire (ts.map Hook.user ++ rest) >>= fun x => .ok (x.1, t.callback :: x.2) else .ub) = _
    rw [if_pos (h t (by simp)), fire_users rest ts fun t' h' => h t' (by simp [h'])]
    cases o.fire rest <;> rfl

private theorem alive_of_hook {o : Obj} {d s : Option Nat} (k : Kept o d s) {t : Thunk} (h : Hook.user t ∈ o.hooks) :
    o.alive t = true := by
  obtain ⟨e, h1, h2⟩ := k.hooks t h
  unfold Obj.alive
  rw [h1]
  simp [h2]

/-- The history up to the first thing kept for a new object. -/
private theorem run_split : ∀ (ops : List Op) {o' : Obj} {as : List Answer}, fresh.run ops = .ok (o', as) →
    (ops.find? Registers = none ∧ o' = fresh ∧ destroyCallbacks ops = []) ∨
    ∃ op rest o1 a as', ops.find? Registers = some op ∧ fresh.step op = .ok (o1, a) ∧ o1.run rest = .ok (o', as') ∧
      destroyCallbacks ops = destroyCallbacks [op] ++ destroyCallbacks rest
  | [], o', as, h => by
    cases h
    exact .inl ⟨rfl, rfl, rfl⟩
  | op :: ops, o', as, h => by
    rw [Obj.run] at h
    by_cases hr : Registers op = true
    · right
      cases hs : fresh.step op with
      | ok x =>
        obtain ⟨o1, a⟩ := x
        rw [hs] at h
        have h' : (o1.run ops >>= fun y => Out.ok (y.1, a :: y.2)) = .ok (o', as) := h
        cases hq : o1.run ops with
        | ok y =>
          rw [hq] at h'
          obtain ⟨rfl, -⟩ := Prod.mk.inj (Out.ok.inj h')
          refine ⟨op, ops, o1, a, y.2, by rw [List.find?_cons_of_pos hr], hs, hq, ?_⟩
          rw [← List.singleton_append, destroyCallbacks, List.filterMap_append]
          rfl
        | err e => rw [hq] at h'; cases h'
        | ub => rw [hq] at h'; cases h'
      | err e => rw [hs] at h; cases h
      | ub => rw [hs] at h; cases h
    · have hs : ∃ a, fresh.step op = .ok (fresh, a) ∧ destroyCallbacks (op :: ops) = destroyCallbacks ops := by
        cases op with
        | getData => exact ⟨.data none, rfl, rfl⟩
        | serialize => exact ⟨.called none, rfl, rfl⟩
        | _ => simp [Registers] at hr
      obtain ⟨a, hs, hd⟩ := hs
      rw [hs] at h
      have h' : (fresh.run ops >>= fun y => Out.ok (y.1, a :: y.2)) = .ok (o', as) := h
      cases hq : fresh.run ops with
      | ok y =>
        rw [hq] at h'
        obtain ⟨rfl, -⟩ := Prod.mk.inj (Out.ok.inj h')
        rw [List.find?_cons_of_neg hr, hd]
        exact run_split ops hq
      | err e => rw [hq] at h'; cases h'
      | ub => rw [hq] at h'; cases h'

/-- **C128** (partial) When the object is destroyed, each destroy callback is called once, from the last one set to the first, while
it is alive, and the binding keeps nothing for the object any more: for the objects of which something else than a destroy callback
was attached first, and for user defined objects, where `delete` comes last.
Missing: a destroy callback attached first, see `C128_first_callback_freed`. -/
theorem C128_destroyed_partial (ops : List Op) :
    (¬ FirstIsDestroy ops → ∃ o as o', fresh.run ops = .ok (o, as) ∧
      o.destroy = .ok (o', (destroyCallbacks ops).reverse) ∧ o'.entry = none) ∧
    ∀ delete, ∃ o o1 as o', create delete = .ok o ∧ o.run ops = .ok (o1, as) ∧
      o1.destroy = .ok (o', (destroyCallbacks ops).reverse ++ [delete]) ∧ o'.entry = none := by
  refine ⟨fun hf => ?_, fun delete => ?_⟩
  · obtain ⟨o, d, s, h, k⟩ := kept_run ops kept_fresh
    refine ⟨o, answers none none ops, ?_⟩
    rcases run_split ops h with ⟨h1, rfl, h2⟩ | ⟨op, rest, o1, a, as', h1, h2, h3, h4⟩
    · exact ⟨fresh, h, by rw [h2]; rfl, rfl⟩
    · have hshape : o1.hooks = [.cleanup] ∧ o1.entry.isSome ∧ o1.remove = none ∧ destroyCallbacks [op] = [] := by
        cases op with
        | setDestroy c => exact absurd ⟨c, h1⟩ hf
        | setData d => cases h2; exact ⟨rfl, rfl, rfl, rfl⟩
        | setSerializer c => cases h2; exact ⟨rfl, rfl, rfl, rfl⟩
        | keepString x => cases h2; exact ⟨rfl, rfl, rfl, rfl⟩
        | getData => have := List.find?_some h1; simp [Registers] at this
        | serialize => have := List.find?_some h1; simp [Registers] at this
      obtain ⟨g1, g2, g3, g4⟩ := hshape
      obtain ⟨⟨us, q1, ts, rfl, q2⟩, q3, q4, -⟩ := run_known rest g2 h3
      rw [g1] at q1
      refine ⟨{ o with entry := none }, h, ?_, rfl⟩
      unfold Obj.destroy
      have e1 : o.hooks.reverse = ts.reverse.map Hook.user ++ [.cleanup] := by rw [q1]; simp
      rw [e1, fire_users [.cleanup] ts.reverse (fun t ht => alive_of_hook k (by rw [q1]; simpa using ht)), q4, g3, h4, g4, ← q2]
      show Out.ok _ = _
      simp [show o.remove = none by rw [q4, g3]]
  · obtain ⟨o, d, s, h, k⟩ := kept_run ops (kept_made delete)
    obtain ⟨⟨us, q1, ts, rfl, q2⟩, q3, q4, q5⟩ := run_known ops (o := made delete) rfl h
    obtain ⟨e, he, ht⟩ := q5 _ ⟨0, delete⟩ rfl (by simp)
    refine ⟨_, o, _, { o with entry := none }, create_eq delete, h, ?_, rfl⟩
    unfold Obj.destroy
    have e1 : o.hooks.reverse = ts.reverse.map Hook.user ++ [] := by
      rw [q1, show (made delete).hooks = [] from rfl]; simp
    rw [e1, fire_users [] ts.reverse (fun t ht => alive_of_hook k (by
      rw [q1, show (made delete).hooks = [] from rfl]; simpa using ht)), q4, ← q2]
    have ha : o.alive ⟨0, delete⟩ = true := by unfold Obj.alive; rw [he]; simp [ht]
    show (if o.alive ⟨0, delete⟩ then _ else _) = _
    rw [if_pos ha]
    simp [show o.remove = some ⟨0, delete⟩ from q4, made]

/-- **C128** fails for the simplest use: when the first thing attached to an object is a destroy callback, its destruction calls the
callback after it was freed, whatever else is done with the object. -/
theorem C128_first_callback_freed {ops : List Op} (hf : FirstIsDestroy ops) :
    ∃ o as, fresh.run ops = .ok (o, as) ∧ o.destroy = .ub := by
  obtain ⟨o, d, s, h, k⟩ := kept_run ops kept_fresh
  refine ⟨o, _, h, ?_⟩
  obtain ⟨c, hc⟩ := hf
  rcases run_split ops h with ⟨h1, -, -⟩ | ⟨op, rest, o1, a, as', h1, h2, h3, h4⟩
  · rw [h1] at hc; cases hc
  · rw [h1] at hc; cases hc
    cases h2
    obtain ⟨⟨us, q1, ts, rfl, q2⟩, -, -, -⟩ := run_known rest (o := fresh.setDestroy c) rfl h3
    have q1' : o.hooks = [.user ⟨0, c⟩, .cleanup] ++ ts.map Hook.user := q1
    unfold Obj.destroy
    have e1 : o.hooks.reverse = ts.reverse.map Hook.user ++ [.cleanup, .user ⟨0, c⟩] := by rw [q1']; simp
    rw [e1, fire_users _ ts.reverse (fun t ht => alive_of_hook k (by
      rw [q1']; simp only [List.mem_append, List.mem_map]; exact .inr ⟨t, by simpa using ht, rfl⟩))]
    rfl

/-- The hypotheses are met, both ways. -/
example : ¬ FirstIsDestroy [.getData, .setData (some 1), .setDestroy 5, .setDestroy 6] ∧
    destroyCallbacks [.getData, .setData (some 1), .setDestroy 5, .setDestroy 6] = [5, 6] ∧
    FirstIsDestroy [.getData, .setDestroy 5, .setData (some 1)] := by
  refine ⟨?_, rfl, 5, rfl⟩
  rintro ⟨c, h⟩
  cases h

/-! ## C129 -/

/-- **C129** (partial) A user defined object that had no user data is read back, and from then on is as one that was created: it
answers to every history in the same way, and its destruction calls the same callbacks.
Missing: user data, see `C129_data_refused`. -/
theorem C129_restored_partial (delete : Nat) (ops : List Op) : ∃ o o1 o2, restore delete none = .ok o ∧
    o.run ops = .ok (o1, answers none none ops) ∧ o1.destroy = .ok (o2, (destroyCallbacks ops).reverse ++ [delete]) := by
  obtain ⟨o, o1, as, o2, h1, h2, h3, -⟩ := (C128_destroyed_partial ops).2 delete
  obtain ⟨o', o1', h1', h2'⟩ := (C128_used_alive ops).2 delete
  rw [h1] at h1'; cases h1'
  rw [h2] at h2'; cases h2'
  exact ⟨o, o1, o2, h1, h2, h3⟩

/-- **C129** fails with user data, whatever they are: the new object is already in the registry when the functions of the object are
to be kept, and reading it is refused. -/
theorem C129_data_refused (delete d : Nat) : restore delete (some d) = .err .invalidValue := rfl

end CCS.Props
