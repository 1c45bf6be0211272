import Verif.Spec.Seeded
import Verif.Lemmas.SpaceSample

/-!
# Sampling with a generator, and with streams

A run that passes a generator along makes its draws in an order that can be told beforehand, so it is a run of the model of `Model/Space` on the
streams of the answers.
-/

namespace CCS.Seeded

open CCS CCS.Spec CCS.Seeded.Spec

variable {σ : Type}

theorem andThen_fst {α β : Type} (x : Out α × σ) (f : α → σ → Out β × σ) : (andThen x f).1 = (x.1 >>= fun a => (f a x.2).1) := by
  obtain ⟨x | x | x, g⟩ := x <;> rfl

theorem andThen_pure {α β : Type} (x : Out α) (g : σ) (f : α → σ → Out β × σ) : (andThen (x, g) f).1 = (x >>= fun a => (f a g).1) :=
  andThen_fst _ _

/-- If it succeeds, both parts do. -/
theorem andThen_ok {α β : Type} {x : Out α × σ} {f : α → σ → Out β × σ} {b : β} (h : (andThen x f).1 = .ok b) :
    ∃ a, x.1 = .ok a ∧ (f a x.2).1 = .ok b ∧ (andThen x f).2 = (f a x.2).2 := by
  obtain ⟨x | x | x, g⟩ := x
  · exact ⟨x, rfl, h, rfl⟩
  · cases h
  · cases h

/-- The generator before draw number `k` of a request for one row: the draws ask for 1, 2, 4, … rows. -/
def before (src : Source σ) (g : σ) : Nat → σ
  | 0 => g
  | k + 1 => (src (2 ^ k) (before src g k)).2

theorem firstColumn_snd (src : Source σ) (n : Nat) (g : σ) : (firstColumn src n g).2 = (src n g).2 := by
  unfold firstColumn andThen
  rcases src n g with ⟨(_ | ⟨c, cs⟩) | e | _, g'⟩ <;> rfl

/-- The answers of one request, as a stream. -/
def answers (src : Source σ) (g : σ) : Nat → Nat → Out (List (List (BitVec 64))) := fun k n => (src n (before src g k)).1

theorem firstColumn_fst (src : Source σ) (k n : Nat) (g : σ) :
    (firstColumn src n (before src g k)).1 = (do
      let cols ← answers src g k n
      match cols with
      | c :: _ => .ok c
      | [] => .ub) := by
  unfold firstColumn
  rw [andThen_fst]
  unfold answers
  rcases src n (before src g k) with ⟨(_ | ⟨c, cs⟩) | e | _, g'⟩ <;> rfl

theorem retry_stream (p : Param) (src : Source σ) (g : σ) (draw : Draws) (hdraw : ∀ k n, draw k n = (firstColumn src n (before src g k)).1) :
    ∀ fuel k found, (Seeded.retryLoop p src 1 fuel (2 ^ k) found (before src g k)).1 = CCS.retryLoop p draw 1 fuel k (2 ^ k) found := by
  intro fuel
  induction fuel with
  | zero =>
    intro k found
    unfold Seeded.retryLoop CCS.retryLoop
    split
    · rfl
    · split <;> rfl
  | succ fuel ih =>
    intro k found
    unfold Seeded.retryLoop CCS.retryLoop
    split
    · rfl
    · next hf =>
      split
      · rfl
      · simp only
        rw [andThen_fst, hdraw, firstColumn_snd]
        have h0 : found.length = 0 := by omega
        have h1 : (1 - found.length) * 2 ^ k = 2 ^ k := by simp [h0]
        rw [h1]
        congr 1
        funext vs
        rw [show 2 ^ k * 2 = 2 ^ (k + 1) from (Nat.pow_succ 2 k).symm]
        exact ih (k + 1) _

theorem param_stream (p : Param) (b : Interval) (src : Source σ) (g : σ) (draw : Draws)
    (hdraw : ∀ k n, draw k n = (firstColumn src n (before src g k)).1) :
    (Seeded.paramSamples p b src 1 g).1 = CCS.paramSamples p b draw 1 := by
  have body : (andThen (checkOversampling b p.interval, g) fun over g =>
      andThen (firstColumn src 1 g) fun vs g =>
        if over then Seeded.retryLoop p src 1 6 2 (vs.filterMap p.keep) g else (convertAll p vs, g)).1 = (do
      let over ← checkOversampling b p.interval
      let vs ← draw 0 1
      if over then CCS.retryLoop p draw 1 6 1 2 (vs.filterMap p.keep) else convertAll p vs) := by
    rw [andThen_pure]
    congr 1
    funext over
    rw [andThen_fst, hdraw 0 1]
    show _ = ((firstColumn src 1 g).1 >>= _)
    congr 1
    funext vs
    cases over
    · rfl
    · have := retry_stream p src g draw hdraw 6 1 (vs.filterMap p.keep)
      rw [firstColumn_snd]
      exact this
  unfold Seeded.paramSamples CCS.paramSamples
  rw [if_neg (by decide), if_neg (by decide)]
  cases hk : p.kind <;> first | rfl | exact body

theorem jointRetry_stream (d : Dist) (src : Source σ) (g : σ) (r : Nat) (hd : ∀ k n, d.soa r k n = answers src g k n) (ps : List Param)
    (overs : List Bool) : ∀ fuel k found out,
    (Seeded.jointRetry src d.dim ps overs 1 fuel (2 ^ k) found out (before src g k)).1 = CCS.jointRetry d r ps overs 1 fuel k (2 ^ k) found out := by
  intro fuel
  induction fuel with
  | zero =>
    intro k found out
    unfold Seeded.jointRetry CCS.jointRetry
    split
    · rfl
    · split <;> rfl
  | succ fuel ih =>
    intro k found out
    unfold Seeded.jointRetry CCS.jointRetry
    split
    · rfl
    · next hf =>
      split
      · rfl
      · simp only
        have h0 : found = 0 := by omega
        subst h0
        rw [andThen_fst, show (1 - 0) * 2 ^ k = 2 ^ k by omega, hd]
        unfold answers
        congr 1
        funext cols
        rw [andThen_pure]
        congr 1
        funext ds
        rw [andThen_pure]
        congr 1
        funext x
        rw [show 2 ^ k * 2 = 2 ^ (k + 1) from (Nat.pow_succ 2 k).symm]
        exact ih (k + 1) _ _

theorem joint_stream (d0 d : Dist) (src : Source σ) (g : σ) (r : Nat) (h1 : d0.dim = d.dim) (h2 : d0.bounds = d.bounds)
    (hd : ∀ k n, d.soa r k n = answers src g k n) (ps : List Param) (out : List Value) :
    (Seeded.jointSamples d0 src ps 1 out g).1 = CCS.jointSamples d r ps 1 out := by
  unfold Seeded.jointSamples CCS.jointSamples
  rw [if_neg Nat.one_ne_zero, if_neg Nat.one_ne_zero, h1, h2]
  split
  · cases ps with
    | nil => rfl
    | cons p ps =>
      cases d.bounds with
      | nil => rfl
      | cons b bs =>
        refine param_stream p b src g (d.draws r) fun k n => ?_
        rw [firstColumn_fst]
        unfold Dist.draws
        rw [hd]
        rfl
  · unfold Seeded.jointMany CCS.jointMany
    rw [h1, h2, andThen_pure]
    congr 1
    funext overs
    rw [andThen_fst, hd]
    show _ = ((src 1 g).1 >>= _)
    congr 1
    funext cols
    rw [andThen_pure]
    congr 1
    funext ds
    unfold Seeded.jointFinish CCS.jointFinish
    split
    · rw [andThen_pure]
      congr 1
      funext x
      exact jointRetry_stream d src g r hd ps overs 6 1 x.1 x.2
    · rfl

section
variable (s : Space) (src : BitVec 64 → Source σ) (g : σ)

/-- The generator before request number `r`: the distributions make their requests in turn. -/
def startAt : Nat → σ
  | 0 => g
  | r + 1 =>
    match s.dists[r % s.dists.length]? with
    | some d => (request s src d (startAt r)).2
    | none => startAt r

/-- The answers of all the requests, as streams. -/
def streams (d : Dist) (r k n : Nat) : Out (List (List (BitVec 64))) := answers (src d.handle) (startAt s src g r) k n

theorem streams_drawn : Drawn src (streams s src g) := fun _ _ _ _ => ⟨_, rfl⟩

theorem request_stream (d : DWrap) (r : Nat) (s' : Space) (hs : s'.params = s.params) :
    (request s src d (startAt s src g r)).1 =
      if s'.params.length < d.indexes.length then .ub
      else paramsAt s'.params d.indexes >>= fun ps =>
        jointSample { d.dist with soa := streams s src g d.dist } r ps (List.replicate d.indexes.length .none) := by
  unfold request
  rw [hs]
  split
  · rfl
  · rw [andThen_pure]
    congr 1
    funext ps
    exact joint_stream d.dist { d.dist with soa := streams s src g d.dist } (src d.dist.handle) (startAt s src g r) r rfl rfl (fun _ _ => rfl) ps _

theorem drawAll_stream (t : Nat) : ∀ (l : List DWrap) (k : Nat) (vals : List Value), s.dists.drop k = l →
    (Seeded.drawAll s src l vals (startAt s src g (t * s.dists.length + k))).1 =
      CCS.drawAll (withStreams s (streams s src g)) t k (l.map fun d => { d with dist := { d.dist with soa := streams s src g d.dist } }) vals ∧
    ∀ out, (Seeded.drawAll s src l vals (startAt s src g (t * s.dists.length + k))).1 = .ok out →
      (Seeded.drawAll s src l vals (startAt s src g (t * s.dists.length + k))).2 = startAt s src g (t * s.dists.length + k + l.length) := by
  intro l
  induction l with
  | nil => intro k vals _; exact ⟨rfl, fun _ _ => rfl⟩
  | cons d l ih =>
    intro k vals hl
    have hk : s.dists[k]? = some d := by
      have := congrArg (·[0]?) hl
      simpa using this
    have hlt : k < s.dists.length := (List.getElem?_eq_some_iff.1 hk).1
    have hl' : s.dists.drop (k + 1) = l := by
      rw [← List.drop_drop, hl]; rfl
    have hnext : (request s src d (startAt s src g (t * s.dists.length + k))).2 = startAt s src g (t * s.dists.length + (k + 1)) := by
      show _ = startAt s src g (t * s.dists.length + k + 1)
      have hm : (t * s.dists.length + k) % s.dists.length = k := by rw [Nat.mul_add_mod_self_right, Nat.mod_eq_of_lt hlt]
      rw [startAt, hm, hk]
    constructor
    · unfold Seeded.drawAll
      rw [List.map_cons]
      unfold CCS.drawAll
      rw [andThen_fst, request_stream s src g d _ (withStreams s (streams s src g)) rfl, hnext]
      split
      · rfl
      · rw [Out.bind_assoc]
        congr 1
        funext ps
        have hlen : (withStreams s (streams s src g)).dists.length = s.dists.length := by simp [withStreams]
        rw [hlen]
        congr 1
        funext vs
        rw [andThen_pure]
        congr 1
        funext vals'
        exact (ih (k + 1) vals' hl').1
    · intro out ho
      unfold Seeded.drawAll at ho ⊢
      obtain ⟨vs, -, h2, h3⟩ := andThen_ok ho
      rw [h3]
      obtain ⟨vals', -, h5, h6⟩ := andThen_ok h2
      rw [h6]
      simp only [hnext] at h5 ⊢
      rw [(ih (k + 1) vals' hl').2 out h5, List.length_cons]
      congr 1
      omega

end

section
variable {ops : FloatOps} {jen : Bytes → BitVec 32} {little : Bool}

theorem setActives_streams (s : Space) (f : Dist → Nat → Nat → Nat → Out (List (List (BitVec 64)))) : ∀ is vals,
    setActives ops jen little (withStreams s f) is vals = setActives ops jen little s is vals := by
  intro is
  induction is with
  | nil => intro vals; rfl
  | cons i is ih =>
    intro vals
    unfold setActives
    show (match s.params[i]? with | none => _ | some w => _) = _
    cases s.params[i]? with
    | none => rfl
    | some w =>
      simp only
      cases w.condition with
      | none => exact ih vals
      | some e =>
        simp only
        show (eval ops jen little (s.env vals) e >>= _) = _
        congr 1
        funext r
        exact ih _

theorem testForbidden_streams (s : Space) (f : Dist → Nat → Nat → Nat → Out (List (List (BitVec 64)))) (vals : List Value) : ∀ cs,
    testForbidden ops jen little (withStreams s f) vals cs = testForbidden ops jen little s vals cs := by
  intro cs
  induction cs with
  | nil => rfl
  | cons c cs ih =>
    unfold testForbidden
    show (eval ops jen little (s.env vals) c >>= _) = _
    congr 1
    funext r
    split
    · rfl
    · exact ih

theorem attempt_stream (s : Space) (src : BitVec 64 → Source σ) (g : σ) (t : Nat) (vals : List Value) :
    (Seeded.attempt ops jen little s src vals (startAt s src g (t * s.dists.length))).1 =
      CCS.attempt ops jen little (withStreams s (streams s src g)) t vals ∧
    ∀ r, (Seeded.attempt ops jen little s src vals (startAt s src g (t * s.dists.length))).1 = .ok r →
      (Seeded.attempt ops jen little s src vals (startAt s src g (t * s.dists.length))).2 = startAt s src g ((t + 1) * s.dists.length) := by
  obtain ⟨h1, h2⟩ := drawAll_stream s src g t s.dists 0 vals rfl
  simp only [Nat.add_zero] at h1 h2
  constructor
  · unfold Seeded.attempt CCS.attempt
    rw [andThen_fst, h1]
    show (CCS.drawAll _ t 0 (withStreams s (streams s src g)).dists vals >>= _) = _
    congr 1
    funext drawn
    rw [andThen_pure, setActives_streams]
    show _ = (setActives ops jen little s s.sorted drawn >>= _)
    congr 1
    funext active
    rw [andThen_pure, testForbidden_streams]
    rfl
  · intro r hr
    unfold Seeded.attempt at hr ⊢
    obtain ⟨a, e1, e2, e3⟩ := andThen_ok hr
    obtain ⟨b, -, e5, e6⟩ := andThen_ok e2
    obtain ⟨c, -, e8, e9⟩ := andThen_ok e5
    rw [e3, e6, e9, h2 a e1, Nat.add_mul, Nat.one_mul]

theorem sampleLoop_stream (s : Space) (src : BitVec 64 → Source σ) (g : σ) : ∀ left t vals,
    (Seeded.sampleLoop ops jen little s src left vals (startAt s src g (t * s.dists.length))).1 =
      CCS.sampleLoop ops jen little (withStreams s (streams s src g)) left t vals := by
  intro left
  induction left with
  | zero =>
    intro t vals
    obtain ⟨h1, -⟩ := attempt_stream (ops := ops) (jen := jen) (little := little) s src g t vals
    unfold Seeded.sampleLoop CCS.sampleLoop
    rw [andThen_fst, h1]
    cases CCS.attempt ops jen little (withStreams s (streams s src g)) t vals with
    | ok r => show (if r.1 = true then _ else _ : Out (List Value) × σ).1 = if r.1 = true then _ else _; split <;> rfl
    | err e => rfl
    | ub => rfl
  | succ left ih =>
    intro t vals
    obtain ⟨h1, h2⟩ := attempt_stream (ops := ops) (jen := jen) (little := little) s src g t vals
    unfold Seeded.sampleLoop CCS.sampleLoop
    rw [andThen_fst, h1]
    cases hc : CCS.attempt ops jen little (withStreams s (streams s src g)) t vals with
    | ok r =>
      rw [h2 r (h1.trans hc)]
      show (if r.1 = true then _ else _ : Out (List Value) × σ).1 = if r.1 = true then _ else _
      split
      · rfl
      · exact ih (t + 1) r.2
    | err e => rfl
    | ub => rfl

theorem samplesLoop_stream (s : Space) (src : BitVec 64 → Source σ) (g : σ) (n : Nat) : ∀ left t cur found,
    ((Seeded.samplesLoop ops jen little s src n left cur found (startAt s src g (t * s.dists.length))).1,
      (Seeded.samplesLoop ops jen little s src n left cur found (startAt s src g (t * s.dists.length))).2.1) =
      CCS.samplesLoop ops jen little (withStreams s (streams s src g)) n left t cur found := by
  intro left
  induction left with
  | zero =>
    intro t cur found
    unfold Seeded.samplesLoop CCS.samplesLoop
    split <;> rfl
  | succ left ih =>
    intro t cur found
    obtain ⟨h1, h2⟩ := attempt_stream (ops := ops) (jen := jen) (little := little) s src g t cur
    unfold Seeded.samplesLoop CCS.samplesLoop
    split
    · rfl
    · simp only
      rw [← h1]
      generalize hx : Seeded.attempt ops jen little s src cur (startAt s src g (t * s.dists.length)) = x at h1 h2 ⊢
      obtain ⟨r | e | _, g'⟩ := x
      · have := h2 r rfl
        simp only at this ⊢
        subst this
        split
        · exact ih (t + 1) _ _
        · exact ih (t + 1) _ _
      · rfl
      · rfl

end

theorem recompute_dists (s : Space) (l : List DWrap) :
    recomputeGraph { s with dists := l } = ({ (recomputeGraph s).1 with dists := l }, (recomputeGraph s).2) := by
  unfold recomputeGraph
  simp only
  rcases edgesLoop s.entries s.params.length 0 (clearEdges s.params) with ⟨ws, r | e | _⟩ <;> rfl

theorem sort_dists (s : Space) (l : List DWrap) :
    topologicalSort { s with dists := l } = ({ (topologicalSort s).1 with dists := l }, (topologicalSort s).2) := by
  unfold topologicalSort
  simp only
  generalize kahn s.params s.params.length _ (roots 0 s.params) [] = x
  cases x <;> rfl

theorem ensure_dists (s : Space) (l : List DWrap) :
    ensureGraph { s with dists := l } = ({ (ensureGraph s).1 with dists := l }, (ensureGraph s).2) := by
  unfold ensureGraph
  simp only
  split
  · rfl
  · unfold generateConstraints
    rw [recompute_dists]
    rcases recomputeGraph s with ⟨s1, r | e | _⟩
    · simp only
      rw [sort_dists]
      rcases topologicalSort s1 with ⟨s2, r | e | _⟩ <;> rfl
    · rfl
    · rfl

theorem ensure_same (s : Space) : (ensureGraph s).1.dists = s.dists := by
  have := ensure_dists s s.dists
  exact congrArg (·.1.dists) this

theorem ensure_streams (s : Space) (f : Dist → Nat → Nat → Nat → Out (List (List (BitVec 64)))) :
    ensureGraph (withStreams s f) = (withStreams (ensureGraph s).1 f, (ensureGraph s).2) := by
  unfold withStreams
  rw [ensure_dists, ensure_same]

end CCS.Seeded
