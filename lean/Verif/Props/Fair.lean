import Mathlib.Data.Int.CardIntervalMod
import Verif.Lemmas.Tuner
import Verif.Props.TreeRun

/-!
# C142: suggestions are fair
-/

namespace CCS.Props

open CCS CCS.Spec

/-- How many of `range` consecutive numbers are congruent to `i`: their share rounded down, or one more, and exactly their share when it is whole. -/
theorem congruent_count (lo range n i : Nat) (hi : i < n) :
    (Nat.count (fun d => (lo + d) % n = i) range = range / n ∨ Nat.count (fun d => (lo + d) % n = i) range = range / n + 1) ∧
    (n ∣ range → Nat.count (fun d => (lo + d) % n = i) range = range / n) := by
  have hn : 0 < n := by omega
  have key : ∀ b, Nat.count (fun x => x % n = i) b = b / n + if i < b % n then 1 else 0 := by
    intro b
    have h := Nat.count_modEq_card b hn i
    rw [Nat.mod_eq_of_lt hi] at h
    rw [← h]
    congr 1
    funext x
    unfold Nat.ModEq
    rw [Nat.mod_eq_of_lt hi]
  have hadd := Nat.count_add (fun x => x % n = i) lo range
  rw [key, key, Nat.add_div hn] at hadd
  have h1 := Nat.mod_lt lo hn
  have h2 := Nat.mod_lt range hn
  have h3 : (lo + range) % n = if n ≤ lo % n + range % n then lo % n + range % n - n else lo % n + range % n := by
    rw [Nat.add_mod]
    split
    · rw [Nat.mod_eq_sub_mod (by assumption), Nat.mod_eq_of_lt (by omega)]
    · rw [Nat.mod_eq_of_lt (by omega)]
  rw [h3] at hadd
  refine ⟨?_, fun hd => ?_⟩
  · split at hadd <;> split at hadd <;> split at hadd <;> omega
  · have h4 : range % n = 0 := Nat.mod_eq_zero_of_dvd hd
    rw [h4] at hadd
    split at hadd <;> split at hadd <;> split at hadd <;> omega

/-- Choosing among `n` things by the remainder of a number, among `range` consecutive numbers that fit in 64 bits. -/
theorem chosen_count {α β : Type} [DecidableEq β] (l : List α) (f : α → β) (hf : (l.map f).Nodup) (lo range : Nat)
    (hr : lo + range ≤ 2 ^ 64) (choose : BitVec 64 → β)
    (hc : ∀ draw (h : draw.toNat % l.length < l.length), choose draw = f (l[draw.toNat % l.length]))
    (x : α) (hx : x ∈ l) :
    (Nat.count (fun d => choose (BitVec.ofNat 64 (lo + d)) = f x) range = range / l.length ∨
      Nat.count (fun d => choose (BitVec.ofNat 64 (lo + d)) = f x) range = range / l.length + 1) ∧
    (l.length ∣ range → Nat.count (fun d => choose (BitVec.ofNat 64 (lo + d)) = f x) range = range / l.length) := by
  obtain ⟨i, hi, rfl⟩ := List.mem_iff_getElem.1 hx
  have h := congruent_count lo range l.length i hi
  have e : Nat.count (fun d => choose (BitVec.ofNat 64 (lo + d)) = f l[i]) range = Nat.count (fun d => (lo + d) % l.length = i) range := by
    rw [Nat.count_eq_card_filter_range, Nat.count_eq_card_filter_range]
    congr 1
    apply Finset.filter_congr
    intro d hd
    have hd' : d < range := Finset.mem_range.1 hd
    have hl : 0 < l.length := by omega
    have ht : (BitVec.ofNat 64 (lo + d)).toNat = lo + d := by
      rw [BitVec.toNat_ofNat, Nat.mod_eq_of_lt (by omega)]
    rw [hc _ (Nat.mod_lt _ hl)]
    constructor
    · intro h2
      have h3 := (List.Nodup.getElem_inj_iff hf (i := (BitVec.ofNat 64 (lo + d)).toNat % l.length) (j := i)
        (hi := by rw [List.length_map]; exact Nat.mod_lt _ hl) (hj := by rw [List.length_map]; exact hi)).1
        (by rw [List.getElem_map, List.getElem_map]; exact h2)
      rw [ht] at h3
      exact h3
    · intro h2
      congr 2
      rw [ht]
      exact h2
  rw [e]
  exact h

section
variable (ops : FloatOps) (jen : Bytes → BitVec 32) (little : Bool)

/-- **C142** With optima of different configurations, each configuration is suggested for the same number of draws, give or take one: for a
generator of `range` numbers from `lo` on, it is suggested for the integer part of its share of them or one more, and exactly for its
share when the number of optima divides `range`. -/
theorem C142_tuner (configuration : BitVec 64 → BitVec 64) (t : Tuner) (s : Space) (time : Nat)
    (hd : (t.optima.map configuration).Nodup) (lo range : Nat) (hr : lo + range ≤ 2 ^ 64) (o : BitVec 64) (ho : o ∈ t.optima) :
    let suggested := Nat.count (fun d => (t.suggest ops jen little configuration s (BitVec.ofNat 64 (lo + d)) time).2 = .ok (.known (configuration o))) range
    (suggested = range / t.optima.length ∨ suggested = range / t.optima.length + 1) ∧
      (t.optima.length ∣ range → suggested = range / t.optima.length) := by
  have hl : 0 < t.optima.length := List.length_pos_of_mem ho
  refine chosen_count t.optima (fun o => Out.ok (Suggested.known (configuration o))) ?_ lo range hr
    (fun draw => (t.suggest ops jen little configuration s draw time).2) (fun draw h => ?_) o ho
  · have h2 : (t.optima.map (fun o => Out.ok (Suggested.known (configuration o)))) =
        (t.optima.map configuration).map (fun c => Out.ok (Suggested.known c)) := by rw [List.map_map]; rfl
    rw [h2]
    exact List.Nodup.map (fun a b hab => by injection hab with h; injection h) hd
  · show (t.suggest ops jen little configuration s draw time).2 = _
    unfold Tuner.suggest
    rw [if_pos hl, List.getElem?_eq_getElem h]

/-- **C142** The same for features tuners, among the optima with the features given. -/
theorem C142_features_tuner (feats : BitVec 64 → Binding) (evals : BitVec 64 → FeaturesEvaluation) (t : Tuner) (f : BitVec 64)
    (hf : f ≠ 0#64) (s : Space) (time : Nat) (l : List (BitVec 64)) (hl : ∃ p : BitVec 64 → Bool, l = t.optima.filter p ∧
      ∀ e, p e = true ↔ SameBinding (feats f) (feats (evals e).features))
    (hd : (l.map fun e => (evals e).evaluation.configuration).Nodup) (lo range : Nat) (hr : lo + range ≤ 2 ^ 64) (o : BitVec 64) (ho : o ∈ l) :
    let suggested := Nat.count (fun d => (t.suggestFor ops jen little feats evals (.ok true) f s (BitVec.ofNat 64 (lo + d)) time).2 =
      .ok (.known (evals o).evaluation.configuration)) range
    (suggested = range / l.length ∨ suggested = range / l.length + 1) ∧ (l.length ∣ range → suggested = range / l.length) := by
  obtain ⟨p, rfl, hp⟩ := hl
  have hs : p = sameFeatures little feats evals f := by
    funext e
    have h1 : sameFeatures little feats evals f e = true ↔ SameBinding (feats f) (feats (evals e).features) := by
      unfold sameFeatures
      rw [beq_iff_eq]
      exact (bindingCmp_total little feats).eq_iff f (evals e).features
    exact Bool.eq_iff_iff.2 ((hp e).trans h1.symm)
  subst hs
  have hl : 0 < (t.optima.filter (sameFeatures little feats evals f)).length := List.length_pos_of_mem ho
  refine chosen_count _ (fun o => Out.ok (Suggested.known (evals o).evaluation.configuration)) ?_ lo range hr
    (fun draw => (t.suggestFor ops jen little feats evals (.ok true) f s draw time).2) (fun draw h => ?_) o ho
  · have h2 : ((t.optima.filter (sameFeatures little feats evals f)).map (fun o => Out.ok (Suggested.known (evals o).evaluation.configuration))) =
        ((t.optima.filter (sameFeatures little feats evals f)).map fun e => (evals e).evaluation.configuration).map
          (fun c => Out.ok (Suggested.known c)) := by rw [List.map_map]; rfl
    rw [h2]
    exact List.Nodup.map (fun a b hab => by injection hab with h; injection h) hd
  · show (t.suggestFor ops jen little feats evals (.ok true) f s draw time).2 = _
    unfold Tuner.suggestFor
    rw [if_neg hf]
    simp only
    rw [if_pos hl, pickLoop_filter, List.getElem?_eq_getElem h]

end

/-- **C142** The same for tree tuners. -/
theorem C142_tree_tuner (s : TreeSource) (configuration : BitVec 64 → BitVec 64) (t : Tuner) (rnd : Nat → F64)
    (hd : (t.optima.map configuration).Nodup) (lo range : Nat) (hr : lo + range ≤ 2 ^ 64) (o : BitVec 64) (ho : o ∈ t.optima) :
    let suggested := Nat.count (fun d => s.suggest configuration t (BitVec.ofNat 64 (lo + d)) rnd = some (.ok (.known (configuration o)))) range
    (suggested = range / t.optima.length ∨ suggested = range / t.optima.length + 1) ∧
      (t.optima.length ∣ range → suggested = range / t.optima.length) := by
  have hl : 0 < t.optima.length := List.length_pos_of_mem ho
  refine chosen_count t.optima (fun o => some (Out.ok (SuggestedTree.known (configuration o)))) ?_ lo range hr
    (fun draw => s.suggest configuration t draw rnd) (fun draw h => ?_) o ho
  · have h2 : (t.optima.map (fun o => some (Out.ok (SuggestedTree.known (configuration o))))) =
        (t.optima.map configuration).map (fun c => some (Out.ok (SuggestedTree.known c))) := by rw [List.map_map]; rfl
    rw [h2]
    exact List.Nodup.map (fun a b hab => by injection hab with h; injection h with h; injection h) hd
  · show s.suggest configuration t draw rnd = _
    unfold TreeSource.suggest
    rw [if_pos hl, List.getElem?_eq_getElem h]

/-- Three optima and a generator of 32 bits: `2^32 = 3 * 1431655765 + 1`. -/
example (ops : FloatOps) (jen : Bytes → BitVec 32) (s : Space) :
    let suggested := Nat.count (fun d => (Tuner.suggest ops jen true id ⟨[4#64, 5#64, 6#64], [4#64, 5#64, 6#64]⟩ s (BitVec.ofNat 64 (0 + d)) 0).2 =
      .ok (.known 5#64)) (2 ^ 32)
    suggested = 1431655765 ∨ suggested = 1431655766 :=
  (C142_tuner ops jen true id ⟨[4#64, 5#64, 6#64], [4#64, 5#64, 6#64]⟩ s 0 (by decide) 0 (2 ^ 32) (by decide) 5#64 (by decide)).1

end CCS.Props
