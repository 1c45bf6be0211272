/-
C162: a tuner that goes on after it was saved and read.
-/
import Verif.Spec.ResumedTuner
import Verif.Props.Resumed
import Verif.Props.RunWire

namespace CCS.Props.Resumed
open CCS CCS.Spec CCS.Resumed.Spec CCS.ResumedTuner CCS.ResumedTuner.Spec CCS.Props

section
variable {τ : Type} {ops : FloatOps} {jen : Bytes → BitVec 32} {little : Bool} {s s₁ s' : Space} {src src' : BitVec 64 → Seeded.Source τ}

theorem ask_agree (h : Alike ops jen little s₁ s' src src') (hs : ensureGraph s = (s₁, .ok ())) (hg₁ : s₁.graphOk = true) (hg : s'.graphOk = true)
    (n : Nat) (g : τ) :
    (ResumedTuner.ask ops jen little src' s' g n).2 = (ResumedTuner.ask ops jen little src s g n).2 ∧
    (ResumedTuner.ask ops jen little src' s' g n).1 = s' ∧ ensureGraph (ResumedTuner.ask ops jen little src s g n).1 = (s₁, .ok ()) := by
  have e1 : ensureGraph s₁ = (s₁, .ok ()) := by unfold ensureGraph; rw [if_pos hg₁]
  have e2 : ensureGraph s' = (s', .ok ()) := by unfold ensureGraph; rw [if_pos hg]
  unfold ResumedTuner.ask Seeded.sampleMany
  by_cases hn : n = 0
  · rw [if_pos hn, if_pos hn]
    exact ⟨rfl, rfl, hs⟩
  · rw [if_neg hn, if_neg hn, hs, e2]
    dsimp only
    have ha := many_agree h n (100 * n % 18446744073709551616) s₁.blank (by simp [Space.blank]) [] g
    rw [show s'.blank = s₁.blank by unfold Space.blank; rw [h.length]]
    generalize Seeded.samplesLoop ops jen little s' src' n (100 * n % 18446744073709551616) s₁.blank [] g = x at ha ⊢
    generalize Seeded.samplesLoop ops jen little s₁ src n (100 * n % 18446744073709551616) s₁.blank [] g = y at ha ⊢
    obtain ⟨cs, r, g1⟩ := x
    obtain ⟨cs', r', g2⟩ := y
    obtain ⟨h1, h2, h3⟩ := ha
    dsimp only at h1 h2 h3
    subst h1 h3
    cases r with
    | ok u =>
      cases u
      rw [h2.1 rfl]
      exact ⟨rfl, rfl, e1⟩
    | err e =>
      cases r' with
      | ok u => cases h2.2 rfl
      | err e' => exact ⟨rfl, rfl, e1⟩
      | ub => exact ⟨rfl, rfl, e1⟩
    | ub =>
      cases r' with
      | ok u => cases h2.2 rfl
      | err e' => exact ⟨rfl, rfl, e1⟩
      | ub => exact ⟨rfl, rfl, e1⟩

theorem asked_moved (f : BitVec 64 → BitVec 64) (s : Space) (g : τ) (n : Nat) :
    movedReply f (ResumedTuner.ask ops jen little src s g n).2.1 = (ResumedTuner.ask ops jen little src s g n).2.1 := by
  unfold ResumedTuner.ask
  rcases Seeded.sampleMany ops jen little s src n g with ⟨a, b, c | c | _, d⟩ <;> rfl

theorem filter_moved {S : BitVec 64 → Prop} {f : BitVec 64 → BitVec 64} {p p' : BitVec 64 → Bool} (h : ∀ x, S x → p' (f x) = p x) :
    ∀ (l : List (BitVec 64)), (∀ x ∈ l, S x) → ((l.map f).filter p').length = (l.filter p).length
  | [], _ => rfl
  | a :: l, hl => by
    have ih := filter_moved h l fun x hx => hl x (by simp [hx])
    rw [List.map_cons, List.filter_cons, List.filter_cons, h a (hl a (by simp))]
    split
    · rw [List.length_cons, List.length_cons, ih]
    · exact ih

theorem pick_moved {S : BitVec 64 → Prop} {f : BitVec 64 → BitVec 64} {p p' : BitVec 64 → Bool} (h : ∀ x, S x → p' (f x) = p x) :
    ∀ (l : List (BitVec 64)) (n : Nat), (∀ x ∈ l, S x) → pickLoop p' n (l.map f) = (pickLoop p n l).map f
  | [], _, _ => rfl
  | a :: l, n, hl => by
    have ih := fun n => pick_moved h l n fun x hx => hl x (by simp [hx])
    rw [List.map_cons]
    unfold pickLoop
    rw [h a (hl a (by simp))]
    split
    · cases n with
      | zero => rfl
      | succ n => exact ih n
    · exact ih n

theorem tuner_agree (h : Alike ops jen little s₁ s' src src') (hg₁ : s₁.graphOk = true) (hg : s'.graphOk = true)
    (get : τ → BitVec 64 × τ) {S : BitVec 64 → Prop} {f : BitVec 64 → BitVec 64} {env env' : TunerEnv} (hv : SameView S f env env')
    {k : BitVec 64 → BitVec 64} {same same' : BitVec 64 → BitVec 64 → Bool} (hk : SameChoice S f k same same') :
    ∀ (ws : List Want) (t : Tuner) (s : Space) (g : τ), (∀ x ∈ t.optima, S x) → TellsOnly S ws → ensureGraph s = (s₁, .ok ()) →
    ResumedTuner.search ops jen little env' same' get src' (movedTuner f t) s' g (ws.map (movedWant f k)) =
      ((ResumedTuner.search ops jen little env same get src t s g ws).1.map (movedReply f),
        movedTuner f (ResumedTuner.search ops jen little env same get src t s g ws).2.1, (ResumedTuner.search ops jen little env same get src t s g ws).2.2)
  | [], _, _, _, _, _, _ => rfl
  | w :: ws, t, s, g, ho, hw, hs => by
    have key : ResumedTuner.turn ops jen little env' same' get src' (movedTuner f t) s' g (movedWant f k w) =
          (movedTuner f (ResumedTuner.turn ops jen little env same get src t s g w).1, s',
            movedReply f (ResumedTuner.turn ops jen little env same get src t s g w).2.2.1, (ResumedTuner.turn ops jen little env same get src t s g w).2.2.2) ∧
        ensureGraph (ResumedTuner.turn ops jen little env same get src t s g w).2.1 = (s₁, .ok ()) ∧
        ∀ x ∈ (ResumedTuner.turn ops jen little env same get src t s g w).1.optima, S x := by
      have ask : ∀ n, ResumedTuner.ask ops jen little src' s' g n =
          (s', movedReply f (ResumedTuner.ask ops jen little src s g n).2.1, (ResumedTuner.ask ops jen little src s g n).2.2) ∧
          ensureGraph (ResumedTuner.ask ops jen little src s g n).1 = (s₁, .ok ()) := by
        intro n
        obtain ⟨a1, a2, a3⟩ := ask_agree h hs hg₁ hg n g
        exact ⟨Prod.ext a2 (by rw [a1, asked_moved]), a3⟩
      cases w with
      | ask n => exact ⟨congrArg (Prod.mk _) (ask n).1, (ask n).2, ho⟩
      | suggest =>
        unfold ResumedTuner.turn movedWant
        dsimp only
        rw [show (movedTuner f t).optima = t.optima.map f from rfl, List.length_map]
        by_cases hp : 0 < t.optima.length
        · rw [if_pos hp, if_pos hp, List.getElem?_map]
          cases t.optima[(get g).1.toNat % t.optima.length]? with
          | none => exact ⟨rfl, hs, ho⟩
          | some e => exact ⟨rfl, hs, ho⟩
        · rw [if_neg hp, if_neg hp]
          exact ⟨congrArg (Prod.mk _) (ask 1).1, (ask 1).2, ho⟩
      | suggestFor φ =>
        have e1 := filter_moved (p := same φ) (p' := same' (k φ)) (hk φ) t.optima ho
        have e2 := fun n => pick_moved (p := same φ) (p' := same' (k φ)) (hk φ) t.optima n ho
        unfold ResumedTuner.turn movedWant
        dsimp only
        rw [show (movedTuner f t).optima = t.optima.map f from rfl, e1]
        by_cases hp : 0 < (t.optima.filter (same φ)).length
        · rw [if_pos hp, if_pos hp, e2]
          cases pickLoop (same φ) ((get g).1.toNat % (t.optima.filter (same φ)).length) t.optima with
          | none => exact ⟨rfl, hs, ho⟩
          | some e => exact ⟨rfl, hs, ho⟩
        · rw [if_neg hp, if_neg hp]
          exact ⟨congrArg (Prod.mk _) (ask 1).1, (ask 1).2, ho⟩
      | tell es =>
        have hm := tell_moved hv es t ho (hw es (by simp))
        unfold ResumedTuner.turn movedWant
        dsimp only
        rw [hm.1]
        exact ⟨rfl, hs, hm.2⟩
    obtain ⟨k1, k2, k3⟩ := key
    rw [List.map_cons]
    unfold ResumedTuner.search
    dsimp only
    rw [k1]
    dsimp only
    rw [tuner_agree h hg₁ hg get hv hk ws _ _ _ k3 (fun es he => hw es (by simp [he])) k2]
    rfl

end

/-- **C162** What a tuner suggests while it is asked and told: as long as it has an optimum, with the features given if there are, one of these, and the
generator makes one step; otherwise what asking for one configuration gives. The tuner and the space are as before. -/
theorem C162_suggests {τ : Type} (ops : FloatOps) (jen : Bytes → BitVec 32) (little : Bool) (env : TunerEnv) (same : BitVec 64 → BitVec 64 → Bool)
    (get : τ → BitVec 64 × τ) (src : BitVec 64 → Seeded.Source τ) (t : Tuner) (s : Space) (g : τ) :
    (t.optima ≠ [] → ∃ e ∈ t.optima, ResumedTuner.turn ops jen little env same get src t s g .suggest = (t, s, .known e, (get g).2)) ∧
    (t.optima = [] → ResumedTuner.turn ops jen little env same get src t s g .suggest = ResumedTuner.turn ops jen little env same get src t s g (.ask 1)) ∧
    ∀ φ, ((∃ e ∈ t.optima, same φ e = true) →
        ∃ e ∈ t.optima, same φ e = true ∧ ResumedTuner.turn ops jen little env same get src t s g (.suggestFor φ) = (t, s, .known e, (get g).2)) ∧
      ((∀ e ∈ t.optima, same φ e = false) →
        ResumedTuner.turn ops jen little env same get src t s g (.suggestFor φ) = ResumedTuner.turn ops jen little env same get src t s g (.ask 1)) := by
  refine ⟨fun h => ?_, fun h => ?_, fun φ => ⟨fun h => ?_, fun h => ?_⟩⟩
  · have hp : 0 < t.optima.length := List.length_pos_iff.mpr h
    have hl := Nat.mod_lt (get g).1.toNat hp
    refine ⟨_, List.getElem_mem hl, ?_⟩
    unfold ResumedTuner.turn
    dsimp only
    rw [if_pos hp, List.getElem?_eq_getElem hl]
  · unfold ResumedTuner.turn
    dsimp only
    rw [if_neg (by simp [h])]
  · obtain ⟨e, he, hs⟩ := h
    have hp : 0 < (t.optima.filter (same φ)).length := List.length_pos_iff.mpr (List.ne_nil_of_mem (List.mem_filter.mpr ⟨he, hs⟩))
    have hl := Nat.mod_lt (get g).1.toNat hp
    have hm := List.mem_filter.mp (List.getElem_mem hl)
    refine ⟨_, hm.1, hm.2, ?_⟩
    unfold ResumedTuner.turn
    dsimp only
    rw [if_pos hp, pickLoop_filter, List.getElem?_eq_getElem hl]
  · have h0 : t.optima.filter (same φ) = [] := List.filter_eq_nil_iff.mpr fun e he => by rw [h e he]; exact Bool.false_ne_true
    unfold ResumedTuner.turn
    dsimp only
    rw [if_neg (by simp [h0])]

variable {σ : Type} {H : Host σ} {P : Places} {mem mem' : BitVec 64 → Param} {mk : Nat → Param → Out Dist} {hp : Heap}
  {pdata : BitVec 64 → Bytes} {o : TunerObj}

/-- **C162** (partial) A random tuner, or random features tuner, can be stopped and taken up again: written, with its spaces, its evaluations and the generator of its space, and read by
a process of the same byte order, it gives from then on what the tuner written would have given, whatever it is asked for and told: the same new configurations,
and for suggestions the configurations of the evaluations that took the place of the old ones; the history, the optima and the generators stay the same.
Old evaluations have the addresses of those read, new ones any, and the two processes see them alike (for the old ones see `C92_same_view`
and `C92_same_features_view`).
Missing: what is missing in `C162_resume_partial` and in C92 (evaluations told twice, or of other spaces). -/
theorem C162_tuner_partial (h : StoredTuner H P mem mem' mk hp pdata o) (hM : H.M.ops = ieee) (hv : ShowsDists H hp o.space.space)
    (hd : ∀ w ∈ o.space.space.dists, SteadyDist (hp.dist w.dist.handle))
    {fresh : Bytes} (hg : newGenerator H.gens o.space.rng.name = .ok fresh) (hsize : o.space.rng.state.length = fresh.length)
    (hc : o.space.space.clauses = [] ∨ DefaultEvaluates H.M.ops H.jen H.little o.space.space)
    (hb : ∀ x ∈ o.tuner.history, Belongs o (o.evals x)) (hn : (spacesOf o ++ o.tuner.history).Nodup) :
    ∃ bs r, WritesBytes (serTuner H.M.ops H.little hp pdata o) bs ∧ ReadsBack (deTuner H o.features.isSome P) bs r ∧ SameTuner P mem' pdata o r.space r ∧
      ∀ (draws : DistObj → Seeded.Source Bytes) (src src' : BitVec 64 → Seeded.Source Bytes) (get : Bytes → BitVec 64 × Bytes)
        (S : BitVec 64 → Prop) (f k : BitVec 64 → BitVec 64) (env env' : TunerEnv) (same same' : BitVec 64 → BitVec 64 → Bool),
        DrawsBy draws src (o.space.space.dists.map (·.dist.handle)) (o.space.space.dists.map fun w => hp.dist w.dist.handle) →
        DrawsBy draws src' (r.space.space.dists.map (·.dist.handle)) r.space.dists →
        SameView S f env env' → SameChoice S f k same same' → (∀ x ∈ o.tuner.history, S x ∧ f x = followEval P o.tuner x) → ∀ ws, TellsOnly S ws →
        ∃ replies t g, ResumedTuner.search H.M.ops H.jen H.little env same get src o.tuner o.space.space o.space.rng.state ws = (replies, t, g) ∧
          ResumedTuner.search H.M.ops H.jen H.little env' same' get src' r.tuner r.space.space r.space.rng.state (ws.map (movedWant f k)) =
            (replies.map (movedReply f), ⟨t.history.map f, t.optima.map f⟩, g) := by
  have hall : recreateAll H.M (o.space.space.dists.map fun w => hp.dist w.dist.handle) =
      .ok (o.space.space.dists.map fun w => hp.dist w.dist.handle) := by
    refine DistObj.recreateAll_same fun c hm => ?_
    obtain ⟨w, hw, rfl⟩ := List.mem_map.mp hm
    exact DistObj.recreate_same hM (h.space.holds w hw).1 (hd w hw)
  obtain ⟨rs, hr⟩ := (C87_rebuilt_exactly h.space).1.mpr ⟨⟨fresh, hg⟩, ⟨_, hall⟩, hc⟩
  obtain ⟨bs, r, h1, -, h2, h3⟩ := C92_round_trip_partial h hr hb hn
  have hsp := h3.space
  subst hsp
  refine ⟨bs, r, h1, h2, h3, fun draws src src' get S f k env env' same same' d1 d2 hview hch hS ws hws => ?_⟩
  have hst : r.space.rng.state = o.space.rng.state := by
    have hr' := hr
    unfold rebuilt at hr'
    obtain ⟨fresh', g1, hr'⟩ := bind_eq_ok hr'
    obtain ⟨ds, g2, hr'⟩ := bind_eq_ok hr'
    obtain ⟨s', g3, hr'⟩ := bind_eq_ok hr'
    rw [← Out.ok.inj hr']
    obtain rfl := Out.ok.inj (g1.symm.trans hg)
    simp only [true_and, if_pos hsize]
  rw [hst]
  obtain ⟨s₁, a1, a2, a3, a4⟩ := read_alike h.space hv hall hr d1 d2
  have hsub : ∀ x ∈ o.tuner.optima, x ∈ o.tuner.history := by
    obtain ⟨calls, hc⟩ := h.made
    rw [hc]
    exact tells_optima calls _ (by simp [Tuner.empty])
  have ht : r.tuner = movedTuner f o.tuner := by
    unfold movedTuner
    rw [List.map_congr_left fun x hx => (hS x hx).2, List.map_congr_left fun x hx => (hS x (hsub x hx)).2, ← h3.history, ← h3.optima]
  rw [ht]
  exact ⟨_, _, _, rfl, tuner_agree a4 a2 a3 get hview hch ws _ _ _ (fun x hx => (hS x (hsub x hx)).1) hws a1⟩

/-- Asked for two configurations and for a suggestion, the tuner of `Props/RunWire`, which meets the other hypotheses (see the examples there and in
`Props/SpaceWire`), gives new configurations and one of its optima; what it gives depends on where the generator stands. -/
example :
    (ResumedTuner.search ieee exJen true exRunEnv (fun φ e => decide (e.toNat % 2 = φ.toNat % 2)) (fun g => (BitVec.ofNat 64 (g.getD 3 0#8).toNat, g.set 3 (g.getD 3 0#8 + 1#8))) (fun a => exDrawn (exStore.dist a))
      (exTuner false [4001#64, 4002#64, 4003#64]).tuner (exSpaceObj exPlain).space (exSpaceObj exPlain).rng.state [.ask 2, .suggest, .tell [4004#64], .suggestFor 0#64]).1 =
      [.asked [[.int 4, .inactive], [.int 6, .inactive]], .known 4003#64, .told (.ok ()), .known 4004#64] ∧
    (ResumedTuner.search ieee exJen true exRunEnv (fun φ e => decide (e.toNat % 2 = φ.toNat % 2)) (fun g => (BitVec.ofNat 64 (g.getD 3 0#8).toNat, g.set 3 (g.getD 3 0#8 + 1#8))) (fun a => exDrawn (exStore.dist a))
      (exTuner false [4001#64, 4002#64, 4003#64]).tuner (exSpaceObj exPlain).space (exSpaceObj exPlain).rng.state [.ask 2, .suggest, .ask 1]).1 ≠
    (ResumedTuner.search ieee exJen true exRunEnv (fun φ e => decide (e.toNat % 2 = φ.toNat % 2)) (fun g => (BitVec.ofNat 64 (g.getD 3 0#8).toNat, g.set 3 (g.getD 3 0#8 + 1#8))) (fun a => exDrawn (exStore.dist a))
      (exTuner false [4001#64, 4002#64, 4003#64]).tuner (exSpaceObj exPlain).space [0#8, 0#8, 0#8, 0#8] [.ask 2, .suggest, .ask 1]).1 := by
  constructor <;> decide +kernel

end CCS.Props.Resumed
