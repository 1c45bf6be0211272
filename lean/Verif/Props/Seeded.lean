import Verif.Lemmas.Seeded
import Verif.Props.SpaceConfig

/-!
# Sampling with seeded generators
-/

namespace CCS.Props.Seeded

open CCS CCS.Spec CCS.Seeded CCS.Seeded.Spec

section
variable {σ : Type} (ops : FloatOps) (jen : Bytes → BitVec 32) (little : Bool) (gsl gsl' : Gsl σ) (src : BitVec 64 → Source σ)
variable (mem : BitVec 64 → Param) (mk : Nat → Param → Out Dist)

theorem put_length (w : World σ) (i : Nat) (g : σ) : (w.put i g).gens.length = w.gens.length := by simp [World.put]

theorem put_types (w : World σ) (i : Nat) (g : σ) : (w.put i g).gens.map (·.type) = w.gens.map (·.type) := by
  unfold World.put
  refine List.ext_getElem? fun k => ?_
  simp only [List.getElem?_map, List.getElem?_modify]
  cases w.gens[k]? <;> by_cases h : i = k <;> simp [h]

theorem put_other (w : World σ) {i j : Nat} (g : σ) (h : i ≠ j) : (w.put i g).gens[j]? = w.gens[j]? := by
  unfold World.put
  simp [h]

theorem put_state (w : World σ) (i j : Nat) (g : σ) :
    ((w.put i g).gens[j]?).map (·.state) = if i = j then (w.gens[j]?).map fun _ => g else (w.gens[j]?).map (·.state) := by
  unfold World.put
  by_cases h : i = j <;> cases hw : w.gens[j]? <;> simp [h, hw]

theorem map_rng_set {l : List SpaceObj} {sp : Nat} {o : SpaceObj} (h : l[sp]? = some o) (s : Space) :
    (l.set sp { o with space := s }).map (·.rng) = l.map (·.rng) := by
  refine List.ext_getElem? fun k => ?_
  simp only [List.getElem?_map, List.getElem?_set]
  split
  · next hk => subst hk; rw [h]; obtain ⟨hl, -⟩ := List.getElem?_eq_some_iff.1 h; simp [hl]
  · rfl

theorem step_tracks {t : Track} {w : World σ} (ht : Tracks t w) (c : Seeded.Call) :
    Tracks (t.after c) (step ops jen little gsl src mem mk w c).1 := by
  obtain ⟨h1, h2⟩ := ht
  cases c with
  | create ty => exact ⟨by simp [Track.after, step, h1], h2⟩
  | createSpace => exact ⟨by simp [Track.after, step, h1], by simp [Track.after, step, h1, h2]⟩
  | edit sp op =>
    cases hs : w.spaces[sp]? with
    | none => simp only [step, hs]; exact ⟨h1, h2⟩
    | some o => cases op <;> simp only [step, hs] <;> first | exact ⟨h1, h2⟩ | exact ⟨h1, h2.trans (map_rng_set hs _).symm⟩
  | seed i s =>
    simp only [Track.after]
    cases hg : w.gens[i]? with
    | none => simp only [step, hg]; rw [if_neg (by rw [h1]; exact Nat.not_lt.2 (List.getElem?_eq_none_iff.1 hg))]; exact ⟨h1, h2⟩
    | some g =>
      simp only [step, hg]
      rw [if_pos (by rw [h1]; exact (List.getElem?_eq_some_iff.1 hg).1)]
      exact ⟨by simp [put_length, h1], h2⟩
  | get i => cases hg : w.gens[i]? <;> simp only [step, hg] <;> first | exact ⟨h1, h2⟩ | exact ⟨by simp [Track.after, put_length, h1], h2⟩
  | uniform i => cases hg : w.gens[i]? <;> simp only [step, hg] <;> first | exact ⟨h1, h2⟩ | exact ⟨by simp [Track.after, put_length, h1], h2⟩
  | draw d i n => cases hg : w.gens[i]? <;> simp only [step, hg] <;> first | exact ⟨h1, h2⟩ | exact ⟨by simp [Track.after, put_length, h1], h2⟩
  | setRng sp i =>
    have hl : t.rng.length = w.spaces.length := by rw [h2]; simp
    simp only [Track.after]
    cases hs : w.spaces[sp]? with
    | none =>
      simp only [step, hs]
      rw [if_neg (by rw [hl]; exact fun h => Nat.not_lt.2 (List.getElem?_eq_none_iff.1 hs) h.1)]
      exact ⟨h1, h2⟩
    | some o =>
      cases hg : w.gens[i]? with
      | none =>
        simp only [step, hs, hg]
        rw [if_neg (by rw [h1]; exact fun h => Nat.not_lt.2 (List.getElem?_eq_none_iff.1 hg) h.2)]
        exact ⟨h1, h2⟩
      | some g =>
        simp only [step, hs, hg]
        rw [if_pos ⟨by rw [hl]; exact (List.getElem?_eq_some_iff.1 hs).1, by rw [h1]; exact (List.getElem?_eq_some_iff.1 hg).1⟩]
        exact ⟨h1, by simp [h2, List.map_set]⟩
  | sample sp =>
    cases hs : w.spaces[sp]? with
    | none => simp only [step, hs]; exact ⟨h1, h2⟩
    | some o =>
      cases hg : w.gens[o.rng]? <;> simp only [step, hs, hg]
      · exact ⟨h1, h2⟩
      · exact ⟨by simp [Track.after, put_length, h1], h2.trans (map_rng_set hs _).symm⟩
  | samples sp n =>
    cases hs : w.spaces[sp]? with
    | none => simp only [step, hs]; exact ⟨h1, h2⟩
    | some o =>
      cases hg : w.gens[o.rng]? <;> simp only [step, hs, hg]
      · exact ⟨h1, h2⟩
      · exact ⟨by simp [Track.after, put_length, h1], h2.trans (map_rng_set hs _).symm⟩

theorem run_tracks (p : List Seeded.Call) {t : Track} {w : World σ} (ht : Tracks t w) :
    Tracks (afterAll t p) (run ops jen little gsl src mem mk w p).1 := by
  induction p generalizing t w with
  | nil => exact ht
  | cons c p ih => exact ih (step_tracks ops jen little gsl src mem mk ht c)

theorem _root_.CCS.Seeded.Spec.Agree.type {l : List Nat} {w w' : World σ} (h : Agree l w w') (i : Nat) :
    (w.gens[i]?).map (·.type) = (w'.gens[i]?).map (·.type) := by
  have := congrArg (·[i]?) h.2.1
  simpa using this

/-- The generator of a call is there in both worlds or in neither; if its state agrees, it is the same. -/
theorem _root_.CCS.Seeded.Spec.Agree.gen {l : List Nat} {w w' : World σ} (h : Agree l w w') {i : Nat} (hi : i ∈ l) : w.gens[i]? = w'.gens[i]? := by
  have h1 := h.type i
  have h2 := h.2.2 i hi
  cases ha : w.gens[i]? with
  | none => rw [ha] at h1; cases hb : w'.gens[i]? with
    | none => rfl
    | some b => rw [hb] at h1; cases h1
  | some a =>
    rw [ha] at h1 h2
    cases hb : w'.gens[i]? with
    | none => rw [hb] at h1; cases h1
    | some b =>
      rw [hb] at h1 h2
      obtain ⟨at', as⟩ := a
      obtain ⟨bt, bs⟩ := b
      cases h1; cases h2; rfl

theorem _root_.CCS.Seeded.Spec.Agree.put {l : List Nat} {w w' : World σ} (h : Agree l w w') (i : Nat) (g : σ) : Agree (i :: l) (w.put i g) (w'.put i g) := by
  refine ⟨h.1, by rw [put_types, put_types]; exact h.2.1, fun j hj => ?_⟩
  rw [put_state, put_state]
  split
  · have := h.type j
    cases ha : w.gens[j]? <;> cases hb : w'.gens[j]? <;> rw [ha, hb] at this <;> first | rfl | cases this
  · next hne =>
    rcases List.mem_cons.1 hj with rfl | hj
    · exact absurd rfl hne
    · exact h.2.2 j hj

theorem _root_.CCS.Seeded.Spec.Agree.mono {l l' : List Nat} {w w' : World σ} (h : Agree l w w') (hl : ∀ i ∈ l', i ∈ l) : Agree l' w w' :=
  ⟨h.1, h.2.1, fun i hi => h.2.2 i (hl i hi)⟩

theorem _root_.CCS.Seeded.Spec.Agree.spaces {l : List Nat} {w w' : World σ} (h : Agree l w w') (f : List SpaceObj → List SpaceObj) :
    Agree l { w with spaces := f w.spaces } { w' with spaces := f w'.spaces } :=
  ⟨by show f _ = f _; rw [h.1], h.2.1, h.2.2⟩

theorem _root_.CCS.Seeded.Spec.Agree.more {l : List Nat} {w w' : World σ} (h : Agree l w w') (hl : ∀ i ∈ l, i < w.gens.length) (ty : Nat) (g g' : σ) :
    Agree l { w with gens := w.gens ++ [⟨ty, g⟩] } { w' with gens := w'.gens ++ [⟨ty, g'⟩] } := by
  have hlen : w.gens.length = w'.gens.length := by have := congrArg List.length h.2.1; simpa using this
  refine ⟨h.1, by simp [h.2.1], fun i hi => ?_⟩
  have := hl i hi
  show ((w.gens ++ [_])[i]?).map _ = ((w'.gens ++ [_])[i]?).map _
  rw [List.getElem?_append_left this, List.getElem?_append_left (hlen ▸ this)]
  exact h.2.2 i hi

/-- The generators seeded so far exist. -/
def Sound (t : Track) : Prop := ∀ i ∈ t.seeded, i < t.gens

theorem Sound.after {t : Track} (h : Sound t) (c : Seeded.Call) : Sound (t.after c) := by
  intro i hi
  cases c with
  | create _ => exact Nat.lt_succ_of_lt (h i hi)
  | createSpace => exact Nat.lt_succ_of_lt (h i hi)
  | seed j s =>
    simp only [Track.after] at hi ⊢
    split at hi
    · next hj =>
      rw [if_pos hj]
      rcases List.mem_cons.1 hi with rfl | hi
      · exact hj
      · exact h i hi
    · next hj => rw [if_neg hj]; exact h i hi
  | setRng sp j =>
    simp only [Track.after] at hi ⊢
    split at hi <;> split <;> first | exact h i hi | contradiction
  | _ => exact h i hi

theorem step_agree (hn : SameNumbers gsl gsl') {t : Track} {w w' : World σ} (ht : Tracks t w) (hs : Sound t) (h : Agree t.seeded w w') (c : Seeded.Call)
    (hc : ∀ i, t.reads c = some i → i ∈ t.seeded) :
    (step ops jen little gsl src mem mk w c).2 = (step ops jen little gsl' src mem mk w' c).2 ∧
      Agree (t.after c).seeded (step ops jen little gsl src mem mk w c).1 (step ops jen little gsl' src mem mk w' c).1 := by
  obtain ⟨n1, n2, n3⟩ := hn
  have hlen : w.gens.length = w'.gens.length := by have := congrArg List.length h.2.1; simpa using this
  have hdef : ∀ i ∈ t.seeded, i < w.gens.length := fun i hi => ht.1 ▸ hs i hi
  have keep : ∀ {i : Nat} (g : σ), i ∈ t.seeded → Agree t.seeded (w.put i g) (w'.put i g) := fun {i} g _ =>
    (h.put i g).mono fun j hj => List.mem_cons_of_mem _ hj
  cases c with
  | create ty => exact ⟨rfl, h.more hdef ty _ _⟩
  | createSpace =>
    refine ⟨rfl, ?_⟩
    have := (h.more hdef 0 (gsl.fresh 0) (gsl'.fresh 0)).spaces (· ++ [⟨Space.empty, w.gens.length⟩])
    simp only [step]
    rw [← hlen]
    exact this
  | edit sp op =>
    simp only [step, ← h.1]
    cases hsp : w.spaces[sp]? with
    | none => exact ⟨rfl, h⟩
    | some o =>
      cases op <;> first
        | exact ⟨rfl, h⟩
        | exact ⟨rfl, rfl, h.2.1, h.2.2⟩
  | seed i s =>
    have hty := h.type i
    simp only [step, Track.after]
    cases ha : w.gens[i]? with
    | none =>
      rw [ha] at hty
      cases hb : w'.gens[i]? with
      | some b => rw [hb] at hty; cases hty
      | none =>
        rw [if_neg (by rw [ht.1]; exact Nat.not_lt.2 (List.getElem?_eq_none_iff.1 ha))]
        exact ⟨rfl, h⟩
    | some a =>
      rw [ha] at hty
      cases hb : w'.gens[i]? with
      | none => rw [hb] at hty; cases hty
      | some b =>
        rw [hb] at hty
        rw [if_pos (by rw [ht.1]; exact (List.getElem?_eq_some_iff.1 ha).1)]
        refine ⟨rfl, ?_⟩
        have : a.type = b.type := Option.some.inj hty
        simp only [this, n1]
        exact h.put i _
  | get i =>
    have hi := hc i rfl
    have hg := h.gen hi
    simp only [step, ← hg, ← n2]
    cases w.gens[i]? with
    | none => exact ⟨rfl, h⟩
    | some g => exact ⟨rfl, keep _ hi⟩
  | uniform i =>
    have hi := hc i rfl
    have hg := h.gen hi
    simp only [step, ← hg, ← n3]
    cases w.gens[i]? with
    | none => exact ⟨rfl, h⟩
    | some g => exact ⟨rfl, keep _ hi⟩
  | draw d i n =>
    have hi := hc i rfl
    have hg := h.gen hi
    simp only [step, ← hg]
    cases w.gens[i]? with
    | none => exact ⟨rfl, h⟩
    | some g => exact ⟨rfl, keep _ hi⟩
  | setRng sp i =>
    have hty := h.type i
    have hsd : (t.after (.setRng sp i)).seeded = t.seeded := by simp only [Track.after]; split <;> rfl
    rw [hsd]
    simp only [step, ← h.1]
    cases hsp : w.spaces[sp]? with
    | none => exact ⟨rfl, h⟩
    | some o =>
      cases ha : w.gens[i]? <;> cases hb : w'.gens[i]? <;> rw [ha, hb] at hty
      · exact ⟨rfl, h⟩
      · cases hty
      · cases hty
      · refine ⟨rfl, ?_⟩
        have := h.spaces (·.set sp { o with rng := i })
        rw [← h.1] at this
        exact this
  | sample sp =>
    have hr : t.rng[sp]? = (w.spaces[sp]?).map (·.rng) := by rw [ht.2]; simp
    simp only [step, ← h.1]
    cases hsp : w.spaces[sp]? with
    | none => exact ⟨rfl, h⟩
    | some o =>
      have hi := hc o.rng (by show t.rng[sp]? = _; rw [hr, hsp]; rfl)
      have hg := h.gen hi
      simp only [← hg]
      cases w.gens[o.rng]? with
      | none => exact ⟨rfl, h⟩
      | some g =>
        refine ⟨rfl, ?_⟩
        have := (keep (Seeded.sampleOne ops jen little o.space src g.state).2.2 hi).spaces
          (·.set sp { o with space := (Seeded.sampleOne ops jen little o.space src g.state).1 })
        rw [show (w'.put o.rng _).spaces = w.spaces from h.1.symm] at this
        exact this
  | samples sp n =>
    have hr : t.rng[sp]? = (w.spaces[sp]?).map (·.rng) := by rw [ht.2]; simp
    simp only [step, ← h.1]
    cases hsp : w.spaces[sp]? with
    | none => exact ⟨rfl, h⟩
    | some o =>
      have hi := hc o.rng (by show t.rng[sp]? = _; rw [hr, hsp]; rfl)
      have hg := h.gen hi
      simp only [← hg]
      cases w.gens[o.rng]? with
      | none => exact ⟨rfl, h⟩
      | some g =>
        refine ⟨rfl, ?_⟩
        have := (keep (Seeded.sampleMany ops jen little o.space src n g.state).2.2.2 hi).spaces
          (·.set sp { o with space := (Seeded.sampleMany ops jen little o.space src n g.state).1 })
        rw [show (w'.put o.rng _).spaces = w.spaces from h.1.symm] at this
        exact this

/-- **C157** A program that seeds every generator before it draws from it is answered the same, whatever the states of the generators it has not
seeded: those there at the start (`w` and `w'` agree on the seeded ones only) and those it makes (`gsl` and `gsl'` differ in them). -/
theorem C157_replay (hn : SameNumbers gsl gsl') {t : Track} {w w' : World σ} (ht : Tracks t w) (hs : ∀ i ∈ t.seeded, i < t.gens)
    (h : Agree t.seeded w w') (p : List Seeded.Call) (hp : SeedsFirst t p) :
    (run ops jen little gsl src mem mk w p).2 = (run ops jen little gsl' src mem mk w' p).2 ∧
      Agree (afterAll t p).seeded (run ops jen little gsl src mem mk w p).1 (run ops jen little gsl' src mem mk w' p).1 := by
  induction p generalizing t w w' with
  | nil => exact ⟨rfl, h⟩
  | cons c p ih =>
    obtain ⟨h1, h2⟩ := step_agree ops jen little gsl gsl' src mem mk hn ht hs h c hp.1
    obtain ⟨h3, h4⟩ := ih (step_tracks ops jen little gsl src mem mk ht c) (Sound.after hs c) h2 hp.2
    exact ⟨by simp only [run, h1, h3], h4⟩

/-- **C157** A program that makes all it uses and seeds every generator before drawing from it has the same answers every time it runs. -/
theorem C157_again (hn : SameNumbers gsl gsl') (p : List Seeded.Call) (hp : SeedsFirst ⟨0, [], []⟩ p) :
    (run ops jen little gsl src mem mk nothing p).2 = (run ops jen little gsl' src mem mk nothing p).2 :=
  (C157_replay ops jen little gsl gsl' src mem mk hn (t := ⟨0, [], []⟩) ⟨rfl, rfl⟩ (by simp) ⟨rfl, rfl, by simp⟩ p hp).1

/-- **C157** A generator seeded again gives the numbers it gave after it was first seeded with that number: what follows does not depend on what was
drawn before. -/
theorem C157_reseed {t : Track} {w : World σ} (ht : Tracks t w) (before p : List Seeded.Call) (i : Nat) (s : BitVec 64) (hi : i < t.gens)
    (hb : ∀ c ∈ before, (∃ n, c = .get n) ∨ (∃ n, c = .uniform n) ∨ ∃ d n m, c = .draw d n m)
    (hp : SeedsFirst ⟨t.gens, t.rng, [i]⟩ p) :
    (run ops jen little gsl src mem mk (step ops jen little gsl src mem mk w (.seed i s)).1 p).2 =
      (run ops jen little gsl src mem mk
        (step ops jen little gsl src mem mk (run ops jen little gsl src mem mk w before).1 (.seed i s)).1 p).2 := by
  have hbase : Agree [] w (run ops jen little gsl src mem mk w before).1 := by
    clear hp ht hi
    have one : ∀ (v : World σ) c, (∃ n, c = .get n) ∨ (∃ n, c = .uniform n) ∨ (∃ d n m, c = .draw d n m) →
        Agree [] v (step ops jen little gsl src mem mk v c).1 := by
      intro v c hc
      have refl : Agree [] v v := ⟨rfl, rfl, by simp⟩
      rcases hc with ⟨n, rfl⟩ | ⟨n, rfl⟩ | ⟨d, n, m, rfl⟩ <;> cases hg : v.gens[n]? <;> simp only [step, hg] <;>
        first | exact refl | exact ⟨rfl, (put_types _ _ _).symm, by simp⟩
    induction before generalizing w with
    | nil => exact ⟨rfl, rfl, by simp⟩
    | cons c b ih =>
      have h1 := one w c (hb c (by simp))
      have h2 := ih (w := (step ops jen little gsl src mem mk w c).1) fun c hc => hb c (List.mem_cons_of_mem _ hc)
      exact ⟨h1.1.trans h2.1, h1.2.1.trans h2.2.1, by simp⟩
  have hsame : SameNumbers gsl gsl := ⟨rfl, rfl, rfl⟩
  obtain ⟨-, h2⟩ := step_agree ops jen little gsl gsl src mem mk hsame (t := ⟨t.gens, t.rng, []⟩) ht (by simp [Sound]) hbase (.seed i s)
    (fun j hj => by simp [Track.reads] at hj)
  have ht' := step_tracks ops jen little gsl src mem mk (t := ⟨t.gens, t.rng, []⟩) (w := w) ht (.seed i s)
  have ha : (Track.after ⟨t.gens, t.rng, []⟩ (.seed i s)) = ⟨t.gens, t.rng, [i]⟩ := by simp [Track.after, hi]
  rw [ha] at h2 ht'
  exact (C157_replay ops jen little gsl gsl src mem mk hsame ht' (by simpa using hi) h2 p hp).1

/-- **C157** A generator that no call draws from and no call seeds is as it was. -/
theorem C157_others {t : Track} {w : World σ} (ht : Tracks t w) {j : Nat} (hj : j < w.gens.length) (p : List Seeded.Call) (hp : Untouched j t p) :
    (run ops jen little gsl src mem mk w p).1.gens[j]? = w.gens[j]? := by
  have one : ∀ {t : Track} {w : World σ}, Tracks t w → j < w.gens.length → ∀ c : Seeded.Call, t.reads c ≠ some j → (∀ s, c ≠ .seed j s) →
      (step ops jen little gsl src mem mk w c).1.gens[j]? = w.gens[j]? := by
    intro t w ht hj c hr hs
    cases c with
    | create ty => exact List.getElem?_append_left hj
    | createSpace => exact List.getElem?_append_left hj
    | edit sp op => cases hsp : w.spaces[sp]? <;> cases op <;> simp only [step, hsp]
    | seed i s =>
      have hne : i ≠ j := fun h => hs s (h ▸ rfl)
      cases hg : w.gens[i]? <;> simp only [step, hg]
      exact put_other w _ hne
    | get i =>
      have hne : i ≠ j := fun h => hr (h ▸ rfl)
      cases hg : w.gens[i]? <;> simp only [step, hg]
      exact put_other w _ hne
    | uniform i =>
      have hne : i ≠ j := fun h => hr (h ▸ rfl)
      cases hg : w.gens[i]? <;> simp only [step, hg]
      exact put_other w _ hne
    | draw d i n =>
      have hne : i ≠ j := fun h => hr (h ▸ rfl)
      cases hg : w.gens[i]? <;> simp only [step, hg]
      exact put_other w _ hne
    | setRng sp i => cases hsp : w.spaces[sp]? <;> cases hg : w.gens[i]? <;> simp only [step, hsp, hg]
    | sample sp =>
      cases hsp : w.spaces[sp]? with
      | none => simp only [step, hsp]
      | some o =>
        have hne : o.rng ≠ j := fun h => hr (by show t.rng[sp]? = _; rw [ht.2]; simp [hsp, h])
        cases hg : w.gens[o.rng]? <;> simp only [step, hsp, hg]
        exact put_other w _ hne
    | samples sp n =>
      cases hsp : w.spaces[sp]? with
      | none => simp only [step, hsp]
      | some o =>
        have hne : o.rng ≠ j := fun h => hr (by show t.rng[sp]? = _; rw [ht.2]; simp [hsp, h])
        cases hg : w.gens[o.rng]? <;> simp only [step, hsp, hg]
        exact put_other w _ hne
  induction p generalizing t w with
  | nil => rfl
  | cons c p ih =>
    have h1 := one ht hj c hp.1 hp.2.1
    have hj' : j < (step ops jen little gsl src mem mk w c).1.gens.length := by
      rw [List.getElem?_eq_getElem hj] at h1
      exact (List.getElem?_eq_some_iff.1 h1).1
    exact (ih (step_tracks ops jen little gsl src mem mk ht c) hj' hp.2.2).trans h1

/-- **C157** What one configuration or several are found to be, when drawn with a generator, is what the model of the space (C49, C50, C56) finds with
streams of numbers that were drawn from the distributions: every theorem about all the streams holds of drawing with a generator. -/
theorem C157_streams (s : Space) (g : σ) :
    ∃ f, Drawn src f ∧
      (Seeded.sampleOne ops jen little s src g).1 = (ensureGraph s).1 ∧
      (Seeded.sampleOne ops jen little s src g).2.1 = (CCS.sampleOne ops jen little (withStreams s f) 0).2 ∧
      ∀ n, ((Seeded.sampleMany ops jen little s src n g).2.1, (Seeded.sampleMany ops jen little s src n g).2.2.1) =
        (CCS.sampleMany ops jen little (withStreams s f) 0 n).2 := by
  refine ⟨streams (ensureGraph s).1 src g, streams_drawn _ _ _, ?_, ?_, fun n => ?_⟩
  · unfold Seeded.sampleOne
    rcases ensureGraph s with ⟨s', r | e | _⟩ <;> rfl
  · have h := sampleLoop_stream (ops := ops) (jen := jen) (little := little) (ensureGraph s).1 src g 99 0 (ensureGraph s).1.blank
    rw [Nat.zero_mul] at h
    unfold Seeded.sampleOne CCS.sampleOne
    rw [ensure_streams]
    generalize ensureGraph s = x at h ⊢
    obtain ⟨s', r | e | _⟩ := x
    · exact h
    · rfl
    · rfl
  · unfold Seeded.sampleMany CCS.sampleMany
    split
    · rfl
    · have h := samplesLoop_stream (ops := ops) (jen := jen) (little := little) (ensureGraph s).1 src g n (100 * n % 18446744073709551616) 0
        (ensureGraph s).1.blank []
      rw [Nat.zero_mul] at h
      rw [ensure_streams]
      generalize ensureGraph s = x at h ⊢
      obtain ⟨s', r | e | _⟩ := x
      · exact h
      · rfl
      · rfl

/-- The streams answer as the distributions do. -/
theorem behaved_streams {src : BitVec 64 → Source σ} {f : Dist → Nat → Nat → Nat → Out (List (List (BitVec 64)))} (hf : Drawn src f) {d : Dist}
    (hd : Sampled src d) : WellBehaved { d with soa := f d } := by
  refine ⟨⟨hd.1, fun t k n cols h => ?_⟩, fun t k n cols h => ?_⟩
  · obtain ⟨g, hg⟩ := hf d t k n
    obtain ⟨h1, h2, -⟩ := hd.2 n g cols (hg.symm.trans h)
    exact ⟨h1, h2⟩
  · obtain ⟨g, hg⟩ := hf d t k n
    exact (hd.2 n g cols (hg.symm.trans h)).2.2

theorem good_streams {mem : BitVec 64 → Param} {s : Space} (h : Good mem s) (f : Dist → Nat → Nat → Nat → Out (List (List (BitVec 64)))) :
    Good mem (withStreams s f) := by
  refine ⟨⟨h.tables.indexed, h.tables.names, h.tables.mem⟩, ⟨h.graph.built, h.graph.known, h.graph.acyclic, h.graph.order, h.graph.full⟩, ?_⟩
  refine ⟨?_, ?_, ?_, ?_, ?_⟩
  · have := h.parts.ids
    simpa [withStreams, Function.comp_def] using this
  · intro d hd
    obtain ⟨d0, h0, rfl⟩ := List.mem_map.1 hd
    exact h.parts.fresh d0 h0
  · have := h.parts.cover
    simpa [withStreams, List.flatMap_map] using this
  · intro d hd
    obtain ⟨d0, h0, rfl⟩ := List.mem_map.1 hd
    exact h.parts.link d0 h0
  · intro d hd
    obtain ⟨d0, h0, rfl⟩ := List.mem_map.1 hd
    exact h.parts.dim d0 h0

/-- The parameters of a space whose order was computed are the same. -/
theorem usable_same {s s' : Space} (hss : SameSpace s s') (hu : ∀ w ∈ s.params, Usable ops jen little w.param) :
    ∀ w ∈ s'.params, Usable ops jen little w.param := by
  intro w hw
  obtain ⟨i, hi, hwi⟩ := List.mem_iff_getElem.1 hw
  obtain ⟨w0, hw0, hcore⟩ := core_some hss.params (List.getElem?_eq_some_iff.2 ⟨hi, hwi⟩)
  rw [(core_fields hcore).2.1]
  exact hu w0 (List.mem_of_getElem? hw0)

theorem sample_valid {s : Space} (hg : Good mem s) (hu : ∀ w ∈ s.params, Usable ops jen little w.param)
    (hd : ∀ d ∈ s.dists, Sampled src d.dist) (g : σ) {v : List Value} (h : (Seeded.sampleOne ops jen little s src g).2.1 = .ok v) :
    Valid ops jen little s v ∧ AllEvaluate ops jen little s v := by
  obtain ⟨f, hf, -, he, -⟩ := C157_streams ops jen little src s g
  have hg1 := good_streams hg f
  have hd1 : ∀ d ∈ (withStreams s f).dists, WellBehaved d.dist := by
    intro d hd'
    obtain ⟨d0, h0, rfl⟩ := List.mem_map.1 hd'
    exact behaved_streams hf (hd d0 h0)
  obtain ⟨s', hg', hss, hok, hso⟩ := sampleOne_good ops jen little mem hg1 0
  rw [he, hso] at h
  rcases sampleLoop_first (ops := ops) (jen := jen) (little := little) hg'.parts 99 0 s'.blank (by simp [Space.blank]) with
    ⟨h1, h2⟩ | ⟨k, hk, h1, ⟨v', ha, hv'⟩ | ⟨e, ha, hv'⟩ | ⟨ha, hv'⟩⟩
  · rw [h2] at h; cases h
  · rw [hv'] at h
    cases h
    obtain ⟨raw, -, -, -, -, -, hval⟩ := attempt_valid hg'.parts (hg'.graph.full hok) (usable_same ops jen little hss hu)
      (by rw [hss.dists]; exact hd1) (by simp [Space.blank]) ha
    obtain ⟨h3, h4⟩ := hval rfl
    rw [hss.valid] at h3
    rw [hss.allEvaluate] at h4
    exact ⟨h3, h4⟩
  · rw [hv'] at h; cases h
  · rw [hv'] at h; cases h

theorem samples_valid {s : Space} (hg : Good mem s) (hu : ∀ w ∈ s.params, Usable ops jen little w.param)
    (hd : ∀ d ∈ s.dists, Sampled src d.dist) (n : Nat) (hsize : 100 * n < 18446744073709551616) (g : σ) {v : List Value}
    (h : v ∈ (Seeded.sampleMany ops jen little s src n g).2.1) : Valid ops jen little s v ∧ AllEvaluate ops jen little s v := by
  obtain ⟨f, hf, -, -, he⟩ := C157_streams ops jen little src s g
  have hg1 := good_streams hg f
  have hd1 : ∀ d ∈ (withStreams s f).dists, WellBehaved d.dist := by
    intro d hd'
    obtain ⟨d0, h0, rfl⟩ := List.mem_map.1 hd'
    exact behaved_streams hf (hd d0 h0)
  by_cases hn : n = 0
  · subst hn; cases h
  obtain ⟨s', hg', hss, hok, hso⟩ := sampleMany_good ops jen little mem hg1 0 hn hsize
  rw [show (Seeded.sampleMany ops jen little s src n g).2.1 = (CCS.sampleMany ops jen little (withStreams s f) 0 n).2.1 from
    congrArg Prod.fst (he n), hso] at h
  obtain ⟨m, -, -, h2, -⟩ := samplesLoop_first (ops := ops) (jen := jen) (little := little) hg'.parts n (100 * n) 0
    s'.blank [] (by simp [Space.blank]) (by simp)
  rw [h2, List.nil_append] at h
  obtain ⟨k, -, -, ha⟩ := mem_hits h
  obtain ⟨raw, -, -, -, -, -, hval⟩ := attempt_valid hg'.parts (hg'.graph.full hok) (usable_same ops jen little hss hu)
    (by rw [hss.dists]; exact hd1) (by simp [Space.blank]) ha
  obtain ⟨h3, h4⟩ := hval rfl
  rw [hss.valid] at h3
  rw [hss.allEvaluate] at h4
  exact ⟨h3, h4⟩

/-- Made by well-formed calls. -/
def Made (s : Space) : Prop :=
  ∃ history, (∀ op ∈ history, WellCalled op) ∧ (∀ op ∈ history, ∀ d ∈ SpaceOp.given op, Sampled src d) ∧
    s = Space.empty.run ops jen little mem mk history

theorem Made.more {s : Space} (h : Made ops jen little src mem mk s) {op : SpaceOp} (hw : WellCalled op) (hd : ∀ d ∈ SpaceOp.given op, Sampled src d) :
    Made ops jen little src mem mk (s.step ops jen little mem mk op).1 := by
  obtain ⟨history, h1, h2, rfl⟩ := h
  refine ⟨history ++ [op], fun x hx => ?_, fun x hx => ?_, (spaceRun_snoc _ history op).symm⟩
  · rcases List.mem_append.1 hx with hx | hx
    · exact h1 x hx
    · rw [List.mem_singleton.1 hx]; exact hw
  · rcases List.mem_append.1 hx with hx | hx
    · exact h2 x hx
    · rw [List.mem_singleton.1 hx]; exact hd

theorem Made.sampled {s : Space} (h : Made ops jen little src mem mk s) (g : σ) :
    Made ops jen little src mem mk (Seeded.sampleOne ops jen little s src g).1 := by
  have he : (Seeded.sampleOne ops jen little s src g).1 = (s.step ops jen little mem mk (.sample 0)).1 := by
    show _ = (CCS.sampleOne ops jen little s 0).1
    unfold Seeded.sampleOne CCS.sampleOne
    rcases ensureGraph s with ⟨s', r | e | _⟩ <;> rfl
  rw [he]
  exact Made.more ops jen little src mem mk h trivial (by simp [SpaceOp.given])

theorem Made.severalSampled {s : Space} (h : Made ops jen little src mem mk s) (n : Nat) (g : σ) :
    Made ops jen little src mem mk (Seeded.sampleMany ops jen little s src n g).1 := by
  have he : (Seeded.sampleMany ops jen little s src n g).1 = (s.step ops jen little mem mk (.samples 0 n)).1 := by
    show _ = (CCS.sampleMany ops jen little s 0 n).1
    unfold Seeded.sampleMany CCS.sampleMany
    split
    · rfl
    · rcases ensureGraph s with ⟨s', r | e | _⟩ <;> rfl
  rw [he]
  exact Made.more ops jen little src mem mk h trivial (by simp [SpaceOp.given])

theorem set_made {l : List SpaceObj} (hl : ∀ o ∈ l, Made ops jen little src mem mk o.space) {sp : Nat} {o : SpaceObj}
    (ho : Made ops jen little src mem mk o.space) : ∀ o' ∈ l.set sp o, Made ops jen little src mem mk o'.space := by
  intro o' h
  rcases List.mem_or_eq_of_mem_set h with h | rfl
  · exact hl o' h
  · exact ho

theorem step_made {w : World σ} (hm : ∀ o ∈ w.spaces, Made ops jen little src mem mk o.space) (c : Seeded.Call)
    (hc : ∀ sp op, c = .edit sp op → WellCalled op ∧ ∀ d ∈ SpaceOp.given op, Sampled src d) :
    ∀ o ∈ (step ops jen little gsl src mem mk w c).1.spaces, Made ops jen little src mem mk o.space := by
  cases c with
  | create ty => exact hm
  | createSpace =>
    intro o ho
    rcases List.mem_append.1 ho with ho | ho
    · exact hm o ho
    · rw [List.mem_singleton.1 ho]; exact ⟨[], by simp, by simp, rfl⟩
  | edit sp op =>
    obtain ⟨h1, h2⟩ := hc sp op rfl
    cases hsp : w.spaces[sp]? with
    | none => simp only [step, hsp]; exact hm
    | some o =>
      have := Made.more ops jen little src mem mk (hm o (List.mem_of_getElem? hsp)) h1 h2
      cases op <;> simp only [step, hsp] <;> first | exact hm | exact set_made ops jen little src mem mk hm this
  | seed i s => cases hg : w.gens[i]? <;> simp only [step, hg] <;> exact hm
  | get i => cases hg : w.gens[i]? <;> simp only [step, hg] <;> exact hm
  | uniform i => cases hg : w.gens[i]? <;> simp only [step, hg] <;> exact hm
  | draw d i n => cases hg : w.gens[i]? <;> simp only [step, hg] <;> exact hm
  | setRng sp i =>
    cases hsp : w.spaces[sp]? <;> cases hg : w.gens[i]? <;> simp only [step, hsp, hg] <;> try exact hm
    next o g => exact set_made ops jen little src mem mk hm (o := { o with rng := i }) (hm o (List.mem_of_getElem? hsp))
  | sample sp =>
    cases hsp : w.spaces[sp]? with
    | none => simp only [step, hsp]; exact hm
    | some o =>
      cases hg : w.gens[o.rng]? <;> simp only [step, hsp, hg]
      · exact hm
      · exact set_made ops jen little src mem mk hm (Made.sampled ops jen little src mem mk (hm o (List.mem_of_getElem? hsp)) _)
  | samples sp n =>
    cases hsp : w.spaces[sp]? with
    | none => simp only [step, hsp]; exact hm
    | some o =>
      cases hg : w.gens[o.rng]? <;> simp only [step, hsp, hg]
      · exact hm
      · exact set_made ops jen little src mem mk hm (Made.severalSampled ops jen little src mem mk (hm o (List.mem_of_getElem? hsp)) _ _)

theorem run_made (p : List Seeded.Call) {w : World σ} (hm : ∀ o ∈ w.spaces, Made ops jen little src mem mk o.space) (hp : WellEdited src p) :
    ∀ o ∈ (run ops jen little gsl src mem mk w p).1.spaces, Made ops jen little src mem mk o.space := by
  induction p generalizing w with
  | nil => exact hm
  | cons c p ih =>
    exact ih (step_made ops jen little gsl src mem mk hm c fun sp op h => hp sp op (h ▸ List.mem_cons_self))
      fun sp op h => hp sp op (List.mem_cons_of_mem _ h)

/-- **C157** In any program, with any generators, in any states and shared in any way between the spaces, a configuration that is sampled from a space is
valid, its activity is what its conditions say, and the space accepts it.  The parameters have bounds that are numbers (`Usable`), and distributions
answer numbers within their bounds.  Missing for the full statement: what C50 misses. -/
theorem C157_sample_valid_partial (hmk : OneDimensional mk) (hmks : ∀ id p d, mk id p = .ok d → Sampled src d) (p : List Seeded.Call)
    (hp : WellEdited src p) {w : World σ} (hw : w = (run ops jen little gsl src mem mk nothing p).1) {sp : Nat} {o : SpaceObj}
    (ho : w.spaces[sp]? = some o) (hu : ∀ x ∈ o.space.params, Usable ops jen little x.param) {v : List Value}
    (h : (step ops jen little gsl src mem mk w (.sample sp)).2 = .one (.ok v) ∨
      ∃ n vs r, 100 * n < 18446744073709551616 ∧ (step ops jen little gsl src mem mk w (.samples sp n)).2 = .many vs r ∧ v ∈ vs) :
    Valid ops jen little o.space v ∧ ActivityRight ops jen little o.space v ∧ (checkSpace ops jen little o.space v).2 = .ok true := by
  obtain ⟨history, h1, h2, h3⟩ : Made ops jen little src mem mk o.space :=
    run_made ops jen little gsl src mem mk p (w := nothing) (by simp [nothing]) hp o (hw ▸ List.mem_of_getElem? ho)
  have hr : Reachable ops jen little mem mk o.space := ⟨history, h1, h3⟩
  have hg := reachable_good hmk hr
  have hd : ∀ d ∈ o.space.dists, Sampled src d.dist := h3 ▸ run_dists hmk hmks history _ (good_empty mem) h1 h2 (by simp [Space.empty])
  have done : Valid ops jen little o.space v ∧ AllEvaluate ops jen little o.space v := by
    rcases h with h | ⟨n, vs, r, hn, h, hv⟩
    · simp only [step, ho] at h
      cases hgen : w.gens[o.rng]? with
      | none => rw [hgen] at h; cases h
      | some g =>
        rw [hgen] at h
        exact sample_valid ops jen little src mem hg hu hd g.state (Answer.one.inj h)
    · simp only [step, ho] at h
      cases hgen : w.gens[o.rng]? with
      | none => rw [hgen] at h; cases h
      | some g =>
        rw [hgen] at h
        exact samples_valid ops jen little src mem hg hu hd n hn g.state ((Answer.many.inj h).1 ▸ hv)
  exact ⟨done.1, done.1.2.1, (C51_check_exact ops jen little mem mk hmk hr v).1.2 done⟩

end

/-! ## The hypotheses are met -/

/-- A source for the example: the numbers are counted up from the state, and the state advances by as many. -/
def countSrc (_ : BitVec 64) : Source Nat := fun n g => (.ok [(List.range n).map fun i => BitVec.ofNat 64 ((g + i) % 10)], g + n)

/-- Generators for the example; `fresh` is the state of those that are not seeded. -/
def countGsl (fresh : Nat) : Gsl Nat := ⟨fun _ => fresh, fun _ s => s.toNat, fun g => (BitVec.ofNat 64 g, g + 1), fun g => (0#64, g + 2)⟩

/-- The space of the example of C50 is made and sampled with its own generator, then with another, then with its own seeded again. -/
def seededProgram : List Seeded.Call :=
  [.createSpace, .edit 0 (.addParameter 1#64 none), .edit 0 (.addParameter 2#64 none), .edit 0 (.setCondition 1 (isValue 1#64 parA 1#64)),
   .edit 0 (.addClause (isValue 2#64 parB 5#64)), .seed 0 1#64, .sample 0, .sample 0, .create 3, .seed 1 8#64, .setRng 0 1, .samples 0 2, .get 1,
   .seed 0 1#64, .setRng 0 0, .sample 0]

theorem seededProgram_first : SeedsFirst ⟨0, [], []⟩ seededProgram := by
  simp [seededProgram, SeedsFirst, Track.after, Track.reads]

/-- The program seeds first; its answers are these with all states of the generators that are not seeded; the last sample is the first again. -/
example : SeedsFirst ⟨0, [], []⟩ seededProgram ∧ SameNumbers (countGsl 0) (countGsl 7) ∧
    (run exOps exJen true (countGsl 7) countSrc exMem exMk nothing seededProgram).2 =
      [.done, .edited (.ok ()), .edited (.ok ()), .edited (.ok ()), .edited (.ok ()), .done, .one (.ok [.int 1#64, .int 2#64]),
       .one (.ok [.int 3#64, .inactive]), .done, .done, .done, .many [[.int 8#64, .inactive], [.int 0#64, .inactive]] (.ok ()), .number 12#64,
       .done, .done, .one (.ok [.int 1#64, .int 2#64])] :=
  ⟨seededProgram_first, ⟨rfl, rfl, rfl⟩, by decide +kernel⟩

/-- **C157** Seeding matters: without it two runs of a program may have different answers. -/
theorem C157_unseeded :
    SameNumbers (countGsl 0) (countGsl 7) ∧ ¬ SeedsFirst ⟨0, [], []⟩ [.create 0, .get 0] ∧
    (run exOps exJen true (countGsl 0) countSrc exMem exMk nothing [.create 0, .get 0]).2 ≠
      (run exOps exJen true (countGsl 7) countSrc exMem exMk nothing [.create 0, .get 0]).2 := by
  refine ⟨⟨rfl, rfl, rfl⟩, ?_, by decide +kernel⟩
  simp [SeedsFirst, Track.after, Track.reads]

theorem countSrc_sampled : ∀ id p d, exMk id p = .ok d → Sampled countSrc d := by
  intro id p d h
  cases h
  refine ⟨rfl, ?_⟩
  intro n g cols h
  cases h
  have hall : ∀ m : Fin 10, (Interval.mk .int 0#64 10#64 1#32 0#32).include (BitVec.ofNat 64 m.val) = true := by decide
  refine ⟨rfl, by simp, ?_⟩
  intro i c b hc hb x hx
  match i, hc, hb with
  | 0, hc, hb =>
    simp at hc hb
    subst hc hb
    obtain ⟨y, -, rfl⟩ := List.mem_map.1 hx
    rw [← C27_membership_exact]
    exact hall ⟨_, Nat.mod_lt _ (by decide)⟩
  | i + 1, hc, hb => simp at hb

/-- The program is one that C157 is about, its distributions answer as they declare, and its space is there to be sampled. -/
example : OneDimensional exMk ∧ (∀ id p d, exMk id p = .ok d → Sampled countSrc d) ∧ WellEdited countSrc seededProgram ∧
    ((run exOps exJen true (countGsl 7) countSrc exMem exMk nothing seededProgram).1.spaces[0]?).isSome = true ∧
    (step exOps exJen true (countGsl 7) countSrc exMem exMk
      (run exOps exJen true (countGsl 7) countSrc exMem exMk nothing seededProgram).1 (.sample 0)).2 = .one (.ok [.int 3#64, .inactive]) := by
  refine ⟨exMk_one, countSrc_sampled, ?_, by decide +kernel, by decide +kernel⟩
  intro sp op h
  simp only [seededProgram, List.mem_cons, List.not_mem_nil, or_false, Seeded.Call.edit.injEq, reduceCtorEq, false_or] at h
  rcases h with ⟨-, rfl⟩ | ⟨-, rfl⟩ | ⟨-, rfl⟩ | ⟨-, rfl⟩
  · exact ⟨exHistory_called _ (by simp [exHistory]), by simp [SpaceOp.given]⟩
  · exact ⟨exHistory_called _ (by simp [exHistory]), by simp [SpaceOp.given]⟩
  · exact ⟨exHistory_called _ (by simp [exHistory]), by simp [SpaceOp.given]⟩
  · exact ⟨exHistory_called _ (by simp [exHistory]), by simp [SpaceOp.given]⟩

/-- A generator that is left alone while others are used. -/
example : Untouched 1 ⟨2, [0], []⟩ [.get 0, .seed 0 3#64, .sample 0, .create 2, .uniform 2] ∧ ¬ Untouched 1 ⟨2, [0], []⟩ [.setRng 0 1, .sample 0] := by
  simp [Untouched, Track.after, Track.reads]

end CCS.Props.Seeded
