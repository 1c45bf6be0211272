import Verif.Props.KokkosTrial

/-!
# C118, C119 and C120: a program that converges
-/

namespace CCS.Props

open CCS CCS.Spec

/-- The request number `n`, given 10. -/
def exAsk (n : Nat) : Kokkos.Event := .request n [⟨2, .int64, .word 10#64⟩] [⟨1, .int64, .word 0#64⟩] (exSupply n)

/-- Contexts one after the other. -/
def exLoop : Nat → List Kokkos.Event
  | 0 => []
  | n + 1 => exLoop n ++ [exAsk n, exEnd n n]

/-- The replies: 3, 5 and 7 in turn. -/
def exAnswers : Nat → List Kokkos.Reply
  | 0 => []
  | n + 1 => exAnswers n ++ [.values [.word (if n % 3 = 0 then 3#64 else if n % 3 = 1 then 5#64 else 7#64)], .nothing]

theorem exPick_onedim : OneDimensional exPick := by
  intro id p d h
  cases h
  rfl

theorem exPick_behaved (id : Nat) (p : Param) (d : Dist) (h : exPick id p = .ok d) : WellBehaved d := by
  cases h
  refine ⟨⟨rfl, fun t k n cols hc => ?_⟩, fun t k n cols hc i c b hcol hb x hx => ?_⟩
  · cases hc
    simp
  · cases hc
    cases i with
    | zero =>
      cases hb
      cases hcol
      obtain ⟨m, -, rfl⟩ := List.mem_map.1 hx
      have h3 : (t + k + m) % 3 < 3 := Nat.mod_lt _ (by decide)
      generalize (t + k + m) % 3 = r at h3
      refine ⟨0, (BitVec.ofNat 64 r).toInt, 3, rfl, rfl, rfl, ?_, ?_⟩
      · have : r = 0 ∨ r = 1 ∨ r = 2 := by omega
        rcases this with rfl | rfl | rfl <;> decide
      · have : r = 0 ∨ r = 1 ∨ r = 2 := by omega
        rcases this with rfl | rfl | rfl <;> decide
    | succ i => cases hb

theorem exLoop_addresses : ∀ n, n < 2 ^ 32 → ((1#64 :: 2#64 :: (exLoop n).flatMap eventAddresses).Nodup ∧
    ∀ a ∈ (exLoop n).flatMap eventAddresses, 1000 ≤ a.toNat ∧ a.toNat < 1000 + 10 * n)
  | 0, _ => ⟨by decide, by simp [exLoop]⟩
  | n + 1, hn => by
    obtain ⟨h1, h2⟩ := exLoop_addresses n (by omega)
    have hv : ∀ k, k < 10 → (BitVec.ofNat 64 (1000 + k + 10 * n)).toNat = 1000 + k + 10 * n := fun k hk => by
      rw [BitVec.toNat_ofNat]; exact Nat.mod_eq_of_lt (by omega)
    have e : (exLoop (n + 1)).flatMap eventAddresses = (exLoop n).flatMap eventAddresses ++
        [BitVec.ofNat 64 (1000 + 2 + 10 * n), BitVec.ofNat 64 (1000 + 3 + 10 * n), BitVec.ofNat 64 (1000 + 1 + 10 * n),
          BitVec.ofNat 64 (1000 + 4 + 10 * n), BitVec.ofNat 64 (1000 + 5 + 10 * n), BitVec.ofNat 64 (1000 + 7 + 10 * n)] := by
      simp [exLoop, exAsk, exEnd, eventAddresses, exSupply]
    have hr : ∀ a ∈ [BitVec.ofNat 64 (1000 + 2 + 10 * n), BitVec.ofNat 64 (1000 + 3 + 10 * n), BitVec.ofNat 64 (1000 + 1 + 10 * n),
          BitVec.ofNat 64 (1000 + 4 + 10 * n), BitVec.ofNat 64 (1000 + 5 + 10 * n), BitVec.ofNat 64 (1000 + 7 + 10 * n)],
        1000 + 10 * n ≤ a.toNat ∧ a.toNat < 1000 + 10 * (n + 1) := by
      intro a ha
      simp only [List.mem_cons, List.not_mem_nil, or_false] at ha
      rcases ha with rfl | rfl | rfl | rfl | rfl | rfl <;> rw [hv _ (by omega)] <;> omega
    have hne : ∀ k k', k < 10 → k' < 10 → k ≠ k' → BitVec.ofNat 64 (1000 + k + 10 * n) ≠ BitVec.ofNat 64 (1000 + k' + 10 * n) :=
      fun k k' hk hk' h he => by
        have := congrArg BitVec.toNat he
        rw [hv k hk, hv k' hk'] at this
        omega
    rw [e]
    constructor
    · rw [← List.cons_append, ← List.cons_append, List.nodup_append]
      refine ⟨h1, ?_, fun a ha b hb hab => ?_⟩
      · simp only [List.nodup_cons, List.mem_cons, List.not_mem_nil, or_false, not_or, not_false_eq_true, List.nodup_nil, and_true]
        exact ⟨⟨hne _ _ (by omega) (by omega) (by omega), hne _ _ (by omega) (by omega) (by omega), hne _ _ (by omega) (by omega) (by omega),
            hne _ _ (by omega) (by omega) (by omega), hne _ _ (by omega) (by omega) (by omega)⟩,
          ⟨hne _ _ (by omega) (by omega) (by omega), hne _ _ (by omega) (by omega) (by omega), hne _ _ (by omega) (by omega) (by omega),
            hne _ _ (by omega) (by omega) (by omega)⟩,
          ⟨hne _ _ (by omega) (by omega) (by omega), hne _ _ (by omega) (by omega) (by omega), hne _ _ (by omega) (by omega) (by omega)⟩,
          ⟨hne _ _ (by omega) (by omega) (by omega), hne _ _ (by omega) (by omega) (by omega)⟩, hne _ _ (by omega) (by omega) (by omega)⟩
      · have hb' := hr b hb
        rw [← hab] at hb'
        rcases List.mem_cons.1 ha with rfl | ha
        · rw [show (1#64).toNat = 1 from rfl] at hb'; omega
        rcases List.mem_cons.1 ha with rfl | ha
        · rw [show (2#64).toNat = 2 from rfl] at hb'; omega
        have := h2 a ha
        omega
    · intro a ha
      rcases List.mem_append.1 ha with ha | ha
      · have := h2 a ha; omega
      · have := hr a ha; omega

/-- What the program declares. -/
def exDeclared : Journal :=
  ⟨[(2, [66#8], ⟨.int64, .ordinal, .set [.word 10#64, .word 20#64]⟩)], [(1, [65#8], ⟨.int64, .ordinal, .set [.word 3#64, .word 5#64, .word 7#64]⟩)],
    [], []⟩

theorem exAsk_announced (n : Nat) (j : Journal) (h1 : j.inputs = exDeclared.inputs) (h2 : j.outputs = exDeclared.outputs) :
    Orderly ieee truncated (fun _ => 0#32) true j (exAsk n) := by
  refine ⟨by simp, fun x hx => ?_, fun x hx => ?_⟩
  · cases List.mem_singleton.1 hx
    rw [h1]
    exact ⟨_, _, List.mem_singleton.2 rfl, rfl⟩
  · cases List.mem_singleton.1 hx
    rw [h2]
    exact ⟨_, _, List.mem_singleton.2 rfl, rfl⟩

theorem allAnnounced_append {ops : FloatOps} {toInt : F64 → Option (BitVec 64)} {jen : Bytes → BitVec 32} {little : Bool} :
    ∀ {es es' : List Kokkos.Event} {j : Journal}, AllAnnounced ops toInt jen little j es →
    AllAnnounced ops toInt jen little (j.after (es.map fun e => (e, .nothing))) es' → AllAnnounced ops toInt jen little j (es ++ es')
  | [], _, _, _, h => h
  | _ :: _, _, _, h, h' => ⟨h.1, allAnnounced_append h.2 h'⟩

theorem after_append : ∀ (xs ys : List (Kokkos.Event × Kokkos.Reply)) (j : Journal), j.after (xs ++ ys) = (j.after xs).after ys
  | [], _, _ => rfl
  | x :: xs, ys, j => after_append xs ys (j.next x.1 x.2)

theorem exLoop_announced : ∀ n (j : Journal), j.inputs = exDeclared.inputs → j.outputs = exDeclared.outputs →
    AllAnnounced ieee truncated (fun _ => 0#32) true j (exLoop n) ∧
    (j.after ((exLoop n).map fun e => (e, .nothing))).inputs = exDeclared.inputs ∧
    (j.after ((exLoop n).map fun e => (e, .nothing))).outputs = exDeclared.outputs := by
  intro n
  induction n with
  | zero => intro j h1 h2; exact ⟨trivial, h1, h2⟩
  | succ n ih =>
    intro j h1 h2
    obtain ⟨h3, h4, h5⟩ := ih j h1 h2
    obtain ⟨h6, h7⟩ := Kokkos.end_declared ((j.after ((exLoop n).map fun e => (e, .nothing))).next (exAsk n) .nothing) n ⟨0#64, 1000#64⟩
      (BitVec.ofNat 64 (1007 + 10 * n)) .nothing
    refine ⟨allAnnounced_append h3 ⟨exAsk_announced n _ h4 h5, trivial, trivial⟩, ?_, ?_⟩
    · simp only [exLoop, List.map_append, after_append]
      exact h6.trans h4
    · simp only [exLoop, List.map_append, after_append]
      exact h7.trans h5

theorem exDeclare_announced : AllAnnounced ieee truncated (fun _ => 0#32) true Journal.empty exDeclare := by
  refine ⟨⟨fun x hx => (by cases hx), fun p hp => ?_⟩, ⟨fun x hx => ?_, fun p hp => ?_⟩, trivial⟩
  · cases hp; exact ⟨by simp [IsNum, num, Param.interval], by simp [IsNum, num, Param.interval]⟩
  · cases List.mem_singleton.1 hx; decide
  · cases hp; exact ⟨by simp [IsNum, num, Param.interval], by simp [IsNum, num, Param.interval]⟩

theorem exAnswers_length : ∀ n, (exAnswers n).length = (exLoop n).length
  | 0 => rfl
  | n + 1 => by simp [exAnswers, exLoop, exAnswers_length n]

/-- What is known after the contexts: they were all measured, until there were 500. -/
theorem exLoop_measured : ∀ n, n ≤ 500 → ∀ j, j = exDeclared.after ((exLoop n).zip (exAnswers n)) →
    j.opened = [] ∧ j.done.length = n ∧ ∀ m ∈ j.done, m.1.vars = [2, 1]
  | 0, _, _, h => by subst h; exact ⟨rfl, rfl, by simp [exLoop, exAnswers, Journal.after, exDeclared]⟩
  | n + 1, hn, j, h => by
    obtain ⟨h1, h2, h3⟩ := exLoop_measured n (by omega) _ rfl
    rw [exLoop, exAnswers, List.zip_append (exAnswers_length n).symm, after_append] at h
    generalize exDeclared.after ((exLoop n).zip (exAnswers n)) = j0 at h h1 h2 h3
    have hof : (j0.of [2, 1]).length = n := by
      rw [← h2]
      congr 1
      refine List.filter_eq_self.2 fun m hm => ?_
      rw [h3 m hm]
      decide
    have hlt : (j0.of [2, 1]).length < 500 := by omega
    subst h
    simp only [List.zip_cons_cons, List.zip_nil_left, Journal.after, exAsk, exEnd, Journal.next, h1, List.filter_nil, List.find?_cons,
      decide_true, Journal.trial, requestVars, List.map_cons, List.map_nil, List.cons_append, List.nil_append, hlt, if_true]
    refine ⟨by simp, by simp [h2], fun m hm => ?_⟩
    rcases List.mem_append.1 hm with hm | hm
    · exact h3 m hm
    · rw [List.mem_singleton.1 hm]; rfl

/-- The replies: the request number 500 is sent 5, as the request number 499, the fastest one; it would be sent 7 otherwise. -/
theorem exLoop_replies : exReplies (exDeclare ++ exLoop 500 ++ [exAsk 500]) =
    some (.nothing :: ((.nothing :: .nothing :: exAnswers 500) ++ [.values [.word 5#64]])) := by decide +kernel

theorem exProgram_of (n : Nat) (hn : n ≤ 500) (sent : List Kokkos.Raw) (h : exReplies (exDeclare ++ exLoop n ++ [exAsk n]) =
    some (.nothing :: ((.nothing :: .nothing :: exAnswers n) ++ [.values sent]))) : ∃ st', Program ieee truncated (fun _ => 0#32) true exPick exLoaded (exDeclare ++ exLoop n)
    (.nothing :: .nothing :: exAnswers n) n [⟨2, .int64, .word 10#64⟩] [⟨1, .int64, .word 0#64⟩] (exSupply n) sent st' := by
  have hblank : Kokkos.State.IsBlank exLoaded := ⟨⟨rfl, rfl, rfl⟩, rfl, rfl⟩
  unfold exReplies at h
  cases hr : Kokkos.run ieee truncated (fun _ => 0#32) true exPick exLoaded
    (.init 20210225 :: (exDeclare ++ exLoop n ++ [exAsk n])) with
  | ok r =>
    rw [hr] at h
    refine ⟨r.1, hblank, ?_, 20210225, ?_⟩
    · refine Kokkos.sensible_of_distinct (j := Journal.empty) (j' := Journal.empty) (used := []) exPick_onedim exPick_behaved (blank_keeps hblank)
        ⟨fun a h => ?_, fun a h => ?_, fun a h => ?_, fun a h => ?_, fun a h => ?_, fun a h => ?_⟩ rfl rfl ?_ ?_
      · obtain ⟨id, h | h⟩ := h <;> simp [Kokkos.look, Kokkos.State.started, exLoaded, Kokkos.State.loaded] at h
      · obtain ⟨k, c, h⟩ := h; simp [Kokkos.look, Kokkos.State.started, exLoaded, Kokkos.State.loaded] at h
      · obtain ⟨k, c, h⟩ := h; simp [Kokkos.look, Kokkos.State.started, exLoaded, Kokkos.State.loaded] at h
      · obtain ⟨t, ⟨k, c, h⟩, -⟩ := h; simp [Kokkos.look, Kokkos.State.started, exLoaded, Kokkos.State.loaded] at h
      · rcases h with ⟨e, ⟨t, ⟨k, c, h⟩, -⟩, -⟩ | ⟨c, x, h, -⟩ <;>
          simp [Kokkos.look, Kokkos.State.started, exLoaded, Kokkos.State.loaded] at h
      · rcases h with ⟨e, ⟨t, ⟨k, c, h⟩, -⟩, -⟩ | ⟨c, x, h, -⟩ <;>
          simp [Kokkos.look, Kokkos.State.started, exLoaded, Kokkos.State.loaded] at h
      · obtain ⟨h1, h2, h3⟩ := exLoop_announced n exDeclared rfl rfl
        refine allAnnounced_append (allAnnounced_append exDeclare_announced h1) ⟨exAsk_announced n _ ?_ ?_, trivial⟩
        · rw [List.map_append, after_append]; exact h2
        · rw [List.map_append, after_append]; exact h3
      · have h1 := (exLoop_addresses (n + 1) (by omega)).1
        have e : exLoop (n + 1) = exLoop n ++ [exAsk n, exEnd n n] := rfl
        rw [e] at h1
        refine List.Sublist.nodup ?_ h1
        simp only [List.nil_append, List.flatMap_append]
        have e2 : List.flatMap eventAddresses exDeclare = [1#64, 2#64] := rfl
        rw [e2]
        simp only [List.cons_append, List.nil_append]
        refine List.Sublist.cons_cons _ (List.Sublist.cons_cons _ (List.Sublist.append_left ?_ _))
        exact List.sublist_append_left _ (eventAddresses (exEnd n n) ++ [])
    · have h' : r.2 = _ := Option.some.inj h
      rw [← h']
      exact hr
  | err e => rw [hr] at h; cases h
  | ub => rw [hr] at h; cases h

/-- The program meets the hypotheses of C118, C119 and C120. -/
theorem exProgram : ∃ st', Program ieee truncated (fun _ => 0#32) true exPick exLoaded (exDeclare ++ exLoop 500)
    (.nothing :: .nothing :: exAnswers 500) 500 [⟨2, .int64, .word 10#64⟩] [⟨1, .int64, .word 0#64⟩] (exSupply 500) [.word 5#64] st' :=
  exProgram_of 500 (by omega) _ exLoop_replies

theorem exLoop_converged (n : Nat) (hn : n ≤ 500) :
    ((Journal.empty.after ((exDeclare ++ exLoop n).zip (.nothing :: .nothing :: exAnswers n))).of (requestVars
      [⟨2, .int64, .word 10#64⟩] [⟨1, .int64, .word 0#64⟩])).length = n := by
  obtain ⟨-, h2, h3⟩ := exLoop_measured n hn _ rfl
  have e : (exDeclare ++ exLoop n).zip (.nothing :: .nothing :: exAnswers n) =
      exDeclare.zip [.nothing, .nothing] ++ (exLoop n).zip (exAnswers n) := rfl
  rw [e, after_append]
  change ((exDeclared.after ((exLoop n).zip (exAnswers n))).of [2, 1]).length = n
  unfold Journal.of
  rw [List.filter_eq_self.2 fun m hm => by rw [h3 m hm]; decide, h2]

/-- The region of the program converged. -/
example : 500 ≤ ((Journal.empty.after ((exDeclare ++ exLoop 500).zip (.nothing :: .nothing :: exAnswers 500))).of (requestVars
    [⟨2, .int64, .word 10#64⟩] [⟨1, .int64, .word 0#64⟩])).length :=
  Nat.le_of_eq (exLoop_converged 500 (Nat.le_refl _)).symm

end CCS.Props
