/-
C160: objects of Python and Ruby as equals, members and keys.
-/
import Verif.Spec.BoundIdentity
import Verif.Props.Binding

namespace CCS.Props.BoundIdentity
open CCS CCS.Spec CCS.Api CCS.BoundIdentity CCS.BoundIdentity.Spec CCS.BoundInterval

variable (cmp : Ref → Other → Out Bool)

/-- **C160** In both languages two objects that stand for parameters are equal exactly when they stand for the same parameter; a parameter is equal to
nothing else, and no comparison raises an exception. -/
theorem C160_parameters_equal {memory : BitVec 64 → Param} {a : Ref} (ha : Stands memory a) :
    (∀ b, Stands memory b → BoundIdentity.equals cmp a (.ref b) = .ok (decide (a.handle = b.handle))) ∧
    (∀ b, (∀ s, b.cls ≠ .parameter s) → BoundIdentity.equals cmp a (.ref b) = .ok false) ∧
    BoundIdentity.equals cmp a .nothing = .ok false ∧ BoundIdentity.equals cmp a .stranger = .ok false := by
  unfold Stands at ha
  unfold BoundIdentity.equals
  rw [ha]
  refine ⟨fun b hb => ?_, fun b hb => ?_, rfl, rfl⟩
  · show Out.ok (decide (_ = b.cls) && _) = _
    rw [hb]
    by_cases h : a.handle = b.handle
    · simp [h]
    · simp [h]
  · have : Class.parameter (shapeOf (memory a.handle)) ≠ b.cls := fun h => hb _ h.symm
    show Out.ok (decide (_ = b.cls) && _) = _
    simp [this]

theorem stands_new (memory : BitVec 64 → Param) (next : Nat) (h : BitVec 64) : Stands memory ⟨next, .parameter (shapeOf (memory h)), h⟩ := rfl

theorem mem_wrapAll {memory : BitVec 64 → Param} {hs : List (BitVec 64)} : ∀ {next : Nat} {r : Ref}, r ∈ wrapAll memory next hs →
    Stands memory r ∧ next ≤ r.id := by
  induction hs with
  | nil => intro next r h; cases h
  | cons h hs ih =>
    intro next r hr
    rcases List.mem_cons.1 hr with rfl | hr
    · exact ⟨rfl, Nat.le_refl _⟩
    · obtain ⟨h1, h2⟩ := ih hr
      exact ⟨h1, by omega⟩

theorem indexIn_wrapAll {memory : BitVec 64 → Param} {x : Ref} (hx : Stands memory x) {hs : List (BitVec 64)} :
    ∀ {next : Nat}, x.id < next → indexIn cmp (wrapAll memory next hs) x = .ok (hs.findIdx? fun h => decide (h = x.handle)) := by
  induction hs with
  | nil => intro next _; rfl
  | cons h hs ih =>
    intro next hn
    unfold wrapAll indexIn
    rw [if_neg (show ¬ next = x.id by omega), (C160_parameters_equal cmp (stands_new memory next h)).1 x hx]
    rw [List.findIdx?_cons]
    show (if decide (h = x.handle) = true then Out.ok (some 0) else _) = _
    by_cases hh : h = x.handle
    · rw [if_pos (by simpa using hh), if_pos (by simpa using hh)]
    · rw [if_neg (by simpa using hh), if_neg (by simpa using hh), ih (by omega)]
      rfl

theorem member_wrapAll {memory : BitVec 64 → Param} {x : Ref} (hx : Stands memory x) {hs : List (BitVec 64)} :
    ∀ {next : Nat}, x.id < next → member cmp (wrapAll memory next hs) x = .ok (decide (x.handle ∈ hs)) := by
  induction hs with
  | nil => intro next _; rfl
  | cons h hs ih =>
    intro next hn
    unfold wrapAll member
    rw [if_neg (show ¬ next = x.id by omega), (C160_parameters_equal cmp (stands_new memory next h)).1 x hx]
    show (if decide (h = x.handle) = true then Out.ok true else _) = _
    by_cases hh : h = x.handle
    · rw [if_pos (by simpa using hh)]
      simp [hh]
    · rw [if_neg (by simpa using hh), ih (by omega)]
      have : (x.handle ∈ h :: hs) ↔ x.handle ∈ hs := by
        rw [List.mem_cons]
        exact ⟨fun h' => h'.resolve_left fun e => hh e.symm, .inr⟩
      simp [this]

/-- **C160** A parameter is found in the list of the parameters of a space, of any kind, exactly when the space has it, and at the position the
library gives, although the list is made of new objects. -/
theorem C160_found {memory : BitVec 64 → Param} {c : Ctx} (hc : Context c) {next : Nat} {x : Ref} (hx : Stands memory x)
    (hn : x.id < next) :
    (∃ b, member cmp (parameters memory next c) x = .ok b ∧ (b = true ↔ ∃ i p, Holds c i x.handle p)) ∧
    ∃ r, indexIn cmp (parameters memory next c) x = .ok r ∧ ∀ i, r = some i ↔ c.index x.handle = .ok i := by
  have ht := context_table hc
  unfold parameters
  refine ⟨⟨_, member_wrapAll cmp hx hn, ?_⟩, _, indexIn_wrapAll cmp hx hn, fun i => ?_⟩
  · rw [decide_eq_true_iff, List.mem_map]
    constructor
    · rintro ⟨⟨h, p⟩, hp, rfl⟩
      obtain ⟨i, hi⟩ := List.mem_iff_getElem?.1 hp
      exact ⟨i, p, hi⟩
    · rintro ⟨i, p, hp⟩
      exact ⟨(x.handle, p), List.mem_of_getElem? hp, rfl⟩
  · rcases ht.index x.handle with ⟨j, p, hp, hj⟩ | ⟨hno, he⟩
    · rw [hj]
      have hfind : (c.params.map (·.1)).findIdx? (fun h => decide (h = x.handle)) = some j := by
        rw [List.findIdx?_eq_some_iff_getElem]
        have hl : j < c.params.length := (List.getElem?_eq_some_iff.1 hp).1
        have hg : c.params[j] = (x.handle, p) := (List.getElem?_eq_some_iff.1 hp).2
        refine ⟨by simpa using hl, by simp [hg], fun k hk => ?_⟩
        have hkl : k < c.params.length := by omega
        simp only [List.getElem_map, decide_eq_true_eq]
        intro he
        have hk' : Holds c k x.handle (c.params[k]).2 := by
          unfold Holds
          rw [List.getElem?_eq_getElem hkl, ← he]
        have := ht.handle_inj hk' hp
        omega
      rw [hfind]
      exact ⟨fun h => by cases h; rfl, fun h => by cases h; rfl⟩
    · rw [he]
      have hfind : (c.params.map (·.1)).findIdx? (fun h => decide (h = x.handle)) = none := by
        rw [List.findIdx?_eq_none_iff]
        intro h hh
        obtain ⟨⟨h', p⟩, hp, rfl⟩ := List.mem_map.1 hh
        obtain ⟨k, hk⟩ := List.mem_iff_getElem?.1 hp
        rw [decide_eq_false_iff_not]
        rintro rfl
        exact hno k p hk
      rw [hfind]
      exact ⟨(fun h => nomatch h), (fun h => nomatch h)⟩

theorem lookup_store {α : Type} {lang : Lang} {d d' : List (Ref × α)} {k : Ref} {v : α} (h : store lang d k v = .ok d') (x : Ref) (hx : hashable lang x.cls = true) :
    lookup lang d' x = if x.id = k.id then .ok (some v) else lookup lang d x := by
  unfold store at h
  split at h
  · cases h
    unfold lookup
    rw [if_pos hx, if_pos hx]
    by_cases hk : x.id = k.id
    · rw [if_pos hk, List.find?_cons_of_pos (by simpa using hk.symm)]
      rfl
    · rw [if_neg hk, List.find?_cons_of_neg (by simpa using fun h => hk h.symm)]
      congr 2
      induction d with
      | nil => rfl
      | cons e d ih =>
        by_cases he : e.1.id = k.id
        · rw [List.filter_cons_of_neg (by simpa using he), ih, List.find?_cons_of_neg (by simpa using fun h => hk (h.symm.trans he))]
        · rw [List.filter_cons_of_pos (by simpa using he)]
          by_cases hx' : e.1.id = x.id
          · rw [List.find?_cons_of_pos (by simpa using hx'), List.find?_cons_of_pos (by simpa using hx')]
          · rw [List.find?_cons_of_neg (by simpa using hx'), List.find?_cons_of_neg (by simpa using hx'), ih]
  · cases h

/-- **C160** What is kept in a dictionary under an object is found with that very object and with no other, in Ruby for every object and in Python for
every one that is not a parameter.  Missing: other objects of the language that stand for the same object of the library. -/
theorem C160_keys_partial {α : Type} {lang : Lang} {d : List (Ref × α)} {k : Ref} (hk : lang = .python → ∀ s, k.cls ≠ .parameter s)
    (v : α) : ∃ d', store lang d k v = .ok d' ∧ lookup lang d' k = .ok (some v) ∧
      ∀ x, x.id ≠ k.id → lookup lang d' x = lookup lang d x := by
  have hh : hashable lang k.cls = true := by
    cases lang with
    | ruby => rfl
    | python =>
      cases hc : k.cls with
      | parameter s => exact absurd hc (hk rfl s)
      | of _ => rfl
  have hs : store lang d k v = .ok ((k, v) :: d.filter fun e => decide (e.1.id ≠ k.id)) := by unfold store; rw [if_pos hh]
  refine ⟨_, hs, ?_, fun x hx => ?_⟩
  · rw [lookup_store hs k hh, if_pos rfl]
  · by_cases hxh : hashable lang x.cls = true
    · rw [lookup_store hs x hxh, if_neg hx]
    · unfold lookup
      rw [if_neg hxh, if_neg hxh]

/-- **C160, violated** In Python no parameter can be a key of a dictionary, nor be looked for in one: an exception is raised, whatever the dictionary. -/
theorem C160_python_parameters {α : Type} {memory : BitVec 64 → Param} {k : Ref} (hk : Stands memory k) (d : List (Ref × α)) (v : α) :
    store .python d k v = .err .external ∧ lookup .python d k = .err .external := by
  unfold Stands at hk
  unfold store lookup
  rw [hk]
  exact ⟨rfl, rfl⟩

/-- **C160, violated** In Ruby, what is kept under a parameter is not found with the object a space returns for that parameter, whatever else is in the
dictionary, although the two are equal. -/
theorem C160_ruby_parameters {α : Type} {memory : BitVec 64 → Param} {c : Ctx} {next i : Nat} {a : Ref} (ha : Stands memory a) {p : Param}
    (hp : Holds c i a.handle p) {d : List (Ref × α)} (hd : ∀ e ∈ d, e.1.id < next) :
    ∃ b ∈ parameters memory next c, BoundIdentity.equals cmp a (.ref b) = .ok true ∧ lookup .ruby d b = .ok none := by
  have hmem : a.handle ∈ c.params.map (·.1) := List.mem_map.2 ⟨_, List.mem_of_getElem? hp, rfl⟩
  have key : ∀ (hs : List (BitVec 64)) (n : Nat), a.handle ∈ hs → ∃ b ∈ wrapAll memory n hs, b.handle = a.handle := by
    intro hs
    induction hs with
    | nil => intro n h; cases h
    | cons h hs ih =>
      intro n hm
      rcases List.mem_cons.1 hm with he | hm
      · exact ⟨_, List.mem_cons_self, he.symm⟩
      · obtain ⟨b, hb, he⟩ := ih (n + 1) hm
        exact ⟨b, List.mem_cons_of_mem _ hb, he⟩
  obtain ⟨b, hb, he⟩ := key _ next hmem
  obtain ⟨h1, h2⟩ := mem_wrapAll hb
  refine ⟨b, hb, ?_, ?_⟩
  · rw [(C160_parameters_equal cmp ha).1 b h1, he]
    simp
  · unfold lookup
    rw [if_pos (show hashable .ruby b.cls = true from rfl), List.find?_eq_none.2 fun e hm => by
      have := hd e hm
      simp only [decide_eq_true_eq]
      omega]
    rfl

/-- **C160, violated** In both languages, two objects that stand for the same space, distribution, expression, tuner, generator, map, tree or tree
space are not equal: an object obtained from another one (the space of a configuration, say) is not equal to the one it was made with, is not a
member of a list that has it, and does not find what is kept under it. -/
theorem C160_others {α : Type} {lang : Lang} {k : Kind} (hk : Plain k) {a b : Ref} (ha : a.cls = .of k) (hb : b.cls = .of k)
    (hid : a.id ≠ b.id) (v : α) :
    BoundIdentity.equals cmp a (.ref b) = .ok false ∧ member cmp [a] b = .ok false ∧
    ∃ d, store lang [] a v = .ok d ∧ lookup lang d b = .ok none := by
  have hc : compared k = false := by
    obtain ⟨-, h1, h2, h3, h4, h5, h6⟩ := hk
    cases k <;> first | rfl | contradiction
  have he : BoundIdentity.equals cmp a (.ref b) = .ok false := by
    unfold BoundIdentity.equals
    simp only [ha, hc]
    simp [hid]
  refine ⟨he, ?_, ?_⟩
  · unfold member
    rw [if_neg hid, he]
    rfl
  · have h1 : hashable lang a.cls = true := by rw [ha]; cases lang <;> rfl
    have h2 : hashable lang b.cls = true := by rw [hb]; cases lang <;> rfl
    refine ⟨_, by unfold store; rw [if_pos h1], ?_⟩
    unfold lookup
    rw [if_pos h2]
    simp [hid]

/-! ## Concrete cases -/

/-- Two parameters in memory. -/
def exMemory : BitVec 64 → Param
  | 1#64 => ⟨[97#8], .none, .string⟩
  | _ => ⟨[98#8], .int 0#64, .numerical ⟨.int, 0#64, 9#64, 1#32, 1#32⟩ 0#64⟩

/-- A features space with both. -/
def exBoth : Ctx := ((Ctx.empty.add exMemory 1#64).1.add exMemory 2#64).1

/-- The objects the program created them with. -/
def exFirst : Ref := ⟨0, .parameter .string, 1#64⟩
@[inherit_doc exFirst] def exSecond : Ref := ⟨1, .parameter .int, 2#64⟩

theorem exBoth_context : Context exBoth :=
  .grown (.add 2#64 (.add 1#64 .empty))

example : Context exBoth ∧ Stands exMemory exFirst ∧ Stands exMemory exSecond ∧ Holds exBoth 1 exSecond.handle (exMemory 2#64) ∧
    parameters exMemory 7 exBoth = [⟨7, .parameter .string, 1#64⟩, ⟨8, .parameter .int, 2#64⟩] ∧
    indexIn (fun _ _ => .ub) (parameters exMemory 7 exBoth) exSecond = .ok (some 1) ∧
    store .ruby ([] : List (Ref × Nat)) exSecond 5 = .ok [(exSecond, 5)] ∧
    lookup .ruby [(exSecond, 5)] exSecond = .ok (some 5) ∧ lookup .ruby [(exSecond, 5)] ⟨8, .parameter .int, 2#64⟩ = .ok none ∧
    lookup .python [(exSecond, 5)] exSecond = .err .external ∧ Plain .configurationSpace ∧
    BoundIdentity.equals (fun _ _ => .ub) ⟨3, .of .configurationSpace, 5#64⟩ (.ref ⟨4, .of .configurationSpace, 5#64⟩) = .ok false :=
  ⟨exBoth_context, by unfold Stands; decide, by unfold Stands; decide, by unfold Holds; decide, by decide, by decide, by decide, by decide, by decide,
    by decide, by unfold Plain; decide, by decide⟩

end CCS.Props.BoundIdentity
