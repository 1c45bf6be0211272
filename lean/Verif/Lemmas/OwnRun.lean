import Verif.Lemmas.OwnGarbage

/-! # Ownership: programs -/

namespace CCS.Own

open CCS

theorem get_nil (r : Ref) : get [] r = .freed := by simp [get]

theorem full_nil : Full [] [] where
  counted r := by rw [get_nil]; simp [stored]
  typed r n o h := by rw [get_nil] at h; exact nomatch h
  borrowed r n o h := by rw [get_nil] at h; exact nomatch h
  linked := ⟨fun c n cs t h => (by rw [get_nil] at h; exact nomatch h),
    fun t n cs p c m cs' q h => (by rw [get_nil] at h; exact nomatch h)⟩
  ranked := ⟨fun _ => 0, fun r n o h => by rw [get_nil] at h; exact nomatch h⟩

theorem run_full : ∀ (ops : List Op) (s : State) (lost : List Ref), Full s.heap (s.ext ++ lost) →
    FairRun s ops → ∃ s' new, run s ops = some s' ∧ Full s'.heap (s'.ext ++ (new ++ lost)) ∧
      new.length ≤ blunders s ops
  | [], s, lost, f, _ => ⟨s, [], rfl, f, Nat.le_refl _⟩
  | op :: ops, s, lost, f, fr => by
    obtain ⟨code, s1, new, hs, f1, hl, hc, -⟩ := step_full f fr.1
    obtain ⟨s2, new2, hr, f2, hl2⟩ := run_full ops s1 (new ++ lost) f1 (fr.2 code s1 hs)
    refine ⟨s2, new2 ++ new, by rw [run, hs]; exact hr, by rwa [List.append_assoc], ?_⟩
    rw [blunders, hs]
    dsimp only
    by_cases hn : new = []
    · subst hn; simp; omega
    · have := hc hn
      rw [if_pos this, List.length_append]; omega

theorem step_tidy {s s' : State} {op : Op} {code : Option Err} (t : Tidy s.heap) (hu : op.userDel = none)
    (h : step s op = some (code, s')) : Tidy s'.heap := by
  have := tidies_act (F := ⟨True, s.heap, op.targets⟩) (fun _ => hu) (fun _ h => h) s.heap
    ⟨fun _ => t, Nat.le_refl _, fun r _ _ n o h => ⟨n, o, h, .refl _⟩⟩
  unfold step at h
  cases hc : op.act s.heap with
  | ok x h1 => rw [hc] at h this; cases h; exact this.1.tidy trivial
  | err e h1 => rw [hc] at h this; cases h; exact this.tidy trivial
  | ub => rw [hc] at h; exact nomatch h

theorem step_framed {s s' : State} {op : Op} {code : Option Err} 
    (h : step s op = some (code, s')) : Framed s.heap op.targets s'.heap := by
  have := tidies_act (op := op) (F := ⟨False, s.heap, op.targets⟩) (fun f => f.elim) (fun _ h => h) s.heap
    ⟨fun f => f.elim, Nat.le_refl _, fun r _ _ n o h => ⟨n, o, h, .refl _⟩⟩
  unfold step at h
  cases hc : op.act s.heap with
  | ok x h1 => rw [hc] at h this; cases h; exact this.1.framed
  | err e h1 => rw [hc] at h this; cases h; exact this.framed
  | ub => rw [hc] at h; exact nomatch h

theorem run_tidy : ∀ (ops : List Op) (s s' : State), Tidy s.heap → (∀ op ∈ ops, op.userDel = none) →
    run s ops = some s' → Tidy s'.heap
  | [], s, s', t, _, h => by cases h; exact t
  | op :: ops, s, s', t, hu, h => by
    rw [run] at h
    cases hc : step s op with
    | none => rw [hc] at h; exact nomatch h
    | some p =>
      obtain ⟨code, s1⟩ := p
      rw [hc] at h
      exact run_tidy ops s1 s' (step_tidy t (hu op (by simp)) hc) (fun o ho => hu o (by simp [ho])) h

theorem alive_of_holds {h : Heap} {E : List Ref} (f : Full h E) {r x : Ref} {n : Nat} {o : Obj}
    (hr : get h r = .live n o) (hx : x ∈ o.holds) : Alive h x := by
  have := f.counted x
  have hs : 0 < stored h x := by
    have h1 : Cell.refs x (.live n o) ≤ stored h x := by
      refine le_sum_of_mem (List.mem_map.2 ⟨_, ?_, rfl⟩)
      have hlt := lt_of_live hr
      have : h[r] = .live n o := by simpa [get, List.getElem?_eq_getElem hlt] using hr
      rw [← this]; exact List.getElem_mem hlt
    exact Nat.lt_of_lt_of_le (List.count_pos_iff.2 hx) h1
  cases hc : get h x with
  | live n o => exact ⟨n, o, hc⟩
  | dying => rw [hc] at this; omega
  | freed => rw [hc] at this; omega

theorem alive_of_own {h : Heap} {E : List Ref} (f : Full h E) {r : Ref} (hr : r ∈ E) : Alive h r := by
  have := f.counted r
  have hs : 0 < E.count r := List.count_pos_iff.2 hr
  cases hc : get h r with
  | live n o => exact ⟨n, o, hc⟩
  | dying => rw [hc] at this; omega
  | freed => rw [hc] at this; omega

theorem alive_of_reach {h : Heap} {E : List Ref} (f : Full h E) {r : Ref} (hr : Reach h E r) : Alive h r := by
  induction hr with
  | own h => exact alive_of_own f h
  | field _ hx hr _ => exact alive_of_holds f hx hr

theorem Reach.mono {h : Heap} {E E' : List Ref} (e : ∀ r ∈ E, r ∈ E') {r : Ref} (hr : Reach h E r) :
    Reach h E' r := by
  induction hr with
  | own h => exact .own (e _ h)
  | field _ hx hr ih => exact .field ih hx hr

theorem wants_of_history {o : Obj} {e : Ref} (h : e ∈ o.history) :
    ∃ k, o.takes = some k ∧ (e, k) ∈ o.wants := by
  cases o <;> first
    | exact ⟨_, rfl, by simp only [Obj.history] at h; simp [Obj.wants, h]⟩
    | exact absurd h (by simp [Obj.history])

/-! ## Fairness of concrete programs -/

def Cell.low (k : Nat) : Cell → Bool
  | .live n _ => n + k < 2 ^ 31
  | _ => true

def bareTree (h : Heap) (c : Ref) : Bool :=
  match get h c with
  | .live _ (.tree cs _) => cs.all (·.isNone)
  | _ => true

def Op.attaches : Op → Option (Ref × Ref)
  | .setChild t _ c | .dynamicChild t _ (.gives c) => some (t, c)
  | _ => none

/-- Enough for `Fair`: arguments are owned, and only trees without children are attached. -/
def fairly (s : State) (op : Op) : Bool :=
  op.args.all (s.ext.contains ·) && op.owned.all (s.ext.contains ·) &&
  s.heap.all (Cell.low op.size) && decide (op.size < 2 ^ 31 - 1) &&
  match op.attaches with
  | some (t, c) => c != t && bareTree s.heap c
  | none => true

theorem below_bare {h : Heap} {c t : Ref} (b : bareTree h c = true) (hb : Below h c t) : t = c := by
  induction hb with
  | refl => rfl
  | @child x y n cs p _ hx hy ih =>
    subst ih
    rw [bareTree, hx] at b
    have := List.all_eq_true.1 b _ hy
    exact nomatch this

theorem fair_of_fairly {s : State} {op : Op} (h : fairly s op = true) : Fair s op := by
  simp only [fairly, Bool.and_eq_true, List.all_eq_true, List.contains_iff_mem,
    decide_eq_true_eq] at h
  obtain ⟨⟨⟨⟨h1, h2⟩, h3⟩, h4⟩, h5⟩ := h
  refine ⟨fun r hr => .own (h1 r hr), h2, fun r n o hr => ?_, h4, fun t i c e hb => ?_⟩
  · have hlt := lt_of_live hr
    have e : s.heap[r] = .live n o := by simpa [get, List.getElem?_eq_getElem hlt] using hr
    have := h3 _ (List.getElem_mem hlt)
    rw [e] at this
    simpa [Cell.low] using this
  · have ha : op.attaches = some (t, c) := by
      rcases e with rfl | rfl <;> rfl
    rw [ha] at h5
    simp only [Bool.and_eq_true, bne_iff_ne] at h5
    exact h5.1 (below_bare h5.2 hb).symm

/-- Every call is fair, by computation. -/
def fairRun : State → List Op → Bool
  | _, [] => true
  | s, op :: ops => fairly s op && match step s op with
    | some (_, s') => fairRun s' ops
    | none => true

theorem FairRun.of : ∀ {ops : List Op} {s : State}, fairRun s ops = true → FairRun s ops
  | [], _, _ => trivial
  | op :: ops, s, h => by
    simp only [fairRun, Bool.and_eq_true] at h
    refine ⟨fair_of_fairly h.1, fun code s' hs => ?_⟩
    have := h.2
    rw [hs] at this
    exact FairRun.of this

end CCS.Own
