import Verif.Lemmas.Joint
import Verif.Props.Param

/-!
# C78: joint sampling
-/

namespace CCS.Props

open CCS CCS.Spec

/-- The value of a converted cell that is not rejected. -/
theorem converted_denotes {p : Param} {o : Bool} {x : BitVec 64} {v : Value} (h : ConvertedCell p o x v)
    (hv : v ≠ .inactive) : Denotes p x v := by
  unfold ConvertedCell at h
  split at h
  · cases hk : p.keep x with
    | none => rw [hk] at h; exact absurd h hv
    | some w => rw [hk] at h; cases h; exact keep_denotes hk
  · exact convert_denotes h

theorem proper_mem_interval {p : Param} {ds : List Interval} {ps : List Param} {overs : List Bool}
    (h : checkOversamplings ds (ps.map Param.interval) = .ok overs) {i : Nat} {b : Interval}
    (hp : ps[i]? = some p) (hb : ds[i]? = some b) (ho : overs[i]? = some false)
    (hprop : Proper p.interval) {x : BitVec 64} (hx : Mem b x) : Mem p.interval x :=
  C31_all_dimensions ds _ overs h i b p.interval hb (by simp [hp]) hprop ho x hx

section
variable (ops : FloatOps) (jen : Bytes → BitVec 32) (little : Bool)

/-- What is needed of the parameters: they come from the API, and their bounds are numbers. -/
def Usable (p : Param) : Prop := Created ops jen little p ∧ Proper p.interval

theorem converted_legal {p : Param} (hp : Usable ops jen little p) {o : Bool} {x : BitVec 64} {v : Value}
    (h : ConvertedCell p o x v) (hv : v ≠ .inactive ∨ o = false)
    (hx : o = false → Mem p.interval x) : Legal p v := by
  unfold ConvertedCell at h
  split at h
  · rename_i ho
    have hv : v ≠ .inactive := by
      rcases hv with hv | hv
      · exact hv
      · rw [ho] at hv; cases hv
    cases hk : p.keep x with
    | none => rw [hk] at h; exact absurd h hv
    | some w => rw [hk] at h; cases h; exact keep_legal hk
  · rename_i ho
    have ho : o = false := by simpa using ho
    have hs : p.kind ≠ .string := by
      intro hk
      unfold Param.convert at h
      rw [hk] at h
      cases h
    obtain ⟨w, hw, hl⟩ := convert_of_mem hs (created_len ops jen little hp.1) (hx ho)
    rw [hw] at h
    cases h
    exact hl

end

/-- Shape of a successful joint sampling with several dimensions, for a property `G` of the cells. -/
theorem joint_rows {G : Param → BitVec 64 → Value → Prop} (d : Dist) (t : Nat) (ps : List Param) (n : Nat)
    (out res : List Value) (hd : Shaped d) (hps : ps.length = d.dim) (hn : n ≠ 0) (hdim : d.dim ≠ 1)
    (hout : out.length = n * d.dim) (h : jointSamples d t ps n out = .ok res)
    (hG : ∀ overs, checkOversamplings d.bounds (ps.map Param.interval) = .ok overs →
      ∀ k m cols, d.soa t k m = .ok cols → ∀ (i : Nat) p o c x v, ps[i]? = some p → overs[i]? = some o →
      cols[i]? = some c → x ∈ c → ConvertedCell p o x v → v ≠ .inactive ∨ o = false → G p x v) :
    res.length = n * d.dim ∧ ∃ src : List (Nat × Nat × Nat), src.length = n ∧ src.Pairwise Before ∧
      ∀ (r k m j : Nat), src[r]? = some (k, m, j) → ∃ cols, d.soa t k m = .ok cols ∧
        ∀ (i : Nat) p, ps[i]? = some p → ∃ c x v, cols[i]? = some c ∧ c[j]? = some x ∧
          res[r * d.dim + i]? = some v ∧ G p x v := by
  unfold jointSamples at h
  rw [if_neg hn, if_neg hdim] at h
  unfold jointMany at h
  obtain ⟨overs, hov, h⟩ := bind_eq_ok h
  obtain ⟨cols, hc, h⟩ := bind_eq_ok h
  obtain ⟨ds, hds, h⟩ := bind_eq_ok h
  have hol : overs.length = d.dim := by
    rw [checkOversamplings_length hov]; simp [hps, hd.1]
  unfold jointFinish at h
  split at h
  · obtain ⟨r, hr, h⟩ := bind_eq_ok h
    have hb := block_of_convert (G := G) hd hps hol hc hds
      (fun i p o c x v h1 h2 h3 h4 h5 h6 => hG overs hov 0 n cols hc i p o c x v h1 h2 h3 h4 h5 (.inl h6))
    obtain ⟨f', o', s', e1, e2, e3, e4, e5, e6⟩ := copyRows_spec hps hb hc n none (.inr rfl)
      n 0 0 out [] (by omega) (by omega) (by simp) (by omega) rfl ⟨.nil, by simp⟩ (by simp)
    rw [e1] at hr
    cases hr
    obtain ⟨g1, src, g2, g3⟩ := jointRetry_spec hd hps hol
      (fun k m cols h0 i p o c x v h1 h2 h3 h4 h5 h6 =>
        hG overs hov k m cols h0 i p o c x v h1 h2 h3 h4 h5 (.inl h6))
      n 6 1 2 f' o' s' res (by omega) e3 e4 e5
      (fun s hs => by rcases e6 s hs with h | h <;> omega) h
    refine ⟨by omega, src, g2, g3.order, ?_⟩
    intro r k m j hr
    obtain ⟨cols, q1, q2⟩ := g3.rows r k m j hr
    refine ⟨cols, q1, fun i p hp => ?_⟩
    obtain ⟨c, x, v, a1, a2, a3, -, a5⟩ := q2 i p hp
    exact ⟨c, x, v, a1, a2, a3, a5⟩
  · rename_i hno
    have hno : ∀ (i : Nat) o, overs[i]? = some o → o = false := by
      intro i o ho
      cases o with
      | false => rfl
      | true =>
        exact absurd (List.any_eq_true.2 ⟨true, List.mem_of_getElem? ho, rfl⟩) hno
    obtain ⟨hcl, hcn⟩ := hd.2 t 0 n cols hc
    have key : ∀ (i : Nat) p, ps[i]? = some p → ∃ o c vs, overs[i]? = some o ∧ cols[i]? = some c ∧ c.length = n ∧
        ds[i]? = some vs ∧ vs.length = n ∧
        ∀ (j : Nat) x, c[j]? = some x → ∃ v, vs[j]? = some v ∧ ConvertedCell p o x v := by
      intro i p hp
      have hi := (List.getElem?_eq_some_iff.1 hp).1
      have h1 : overs[i]? = some (overs[i]'(by omega)) := List.getElem?_eq_getElem _
      have h2 : cols[i]? = some (cols[i]'(by omega)) := List.getElem?_eq_getElem _
      obtain ⟨vs, hvs, hl, hcell⟩ := convertColumns_get hds i p _ _ hp h1 h2
      have hlen := hcn _ (List.getElem_mem (l := cols) (n := i) (by omega))
      exact ⟨_, _, vs, h1, h2, hlen, hvs, by omega, hcell⟩
    have ht : ∀ i j, i < d.dim → j < n → ∃ v, cell ds i j = some v := by
      intro i j hi hj
      obtain ⟨o, c, vs, -, -, hcn', hvs, hvn, -⟩ := key i (ps[i]'(by omega)) (List.getElem?_eq_getElem _)
      refine ⟨vs[j], ?_⟩
      unfold cell
      rw [hvs]
      exact List.getElem?_eq_getElem _
    obtain ⟨res', r1, r2, r3⟩ := transposeRows_spec ht n 0 out (by omega) (by omega) (by intro _ _ h; omega)
    rw [r1] at h
    cases h
    refine ⟨by omega, (List.range n).map (fun j => (0, n, j)), by simp, ?_, ?_⟩
    · rw [List.pairwise_map]
      exact List.pairwise_lt_range.imp (fun h => .inr ⟨rfl, h⟩)
    · intro r k m j hr
      rw [List.getElem?_map] at hr
      cases hrr : (List.range n)[r]? with
      | none => rw [hrr] at hr; cases hr
      | some r' =>
        rw [hrr] at hr
        obtain ⟨hlt, he⟩ := List.getElem?_eq_some_iff.1 hrr
        simp at hlt he
        subst he
        simp at hr
        obtain ⟨rfl, rfl, rfl⟩ := hr
        refine ⟨cols, hc, fun i p hp => ?_⟩
        obtain ⟨o, c, vs, ho, hcc, hcn', hvs, hvn, hcell⟩ := key i p hp
        have hx : c[r]? = some c[r] := List.getElem?_eq_getElem (by omega)
        obtain ⟨v, hv, hcv⟩ := hcell r _ hx
        have hi := (List.getElem?_eq_some_iff.1 hp).1
        refine ⟨c, _, v, hcc, hx, ?_, ?_⟩
        · rw [r3 r i hlt (by omega)]
          unfold cell
          rw [hvs]
          exact hv
        · exact hG overs hov 0 n cols hc i p o c _ v hp ho hcc (List.mem_of_getElem? hx) hcv
            (.inr (hno i o ho))

theorem converted_denotes' {p : Param} {o : Bool} {x : BitVec 64} {v : Value} (h : ConvertedCell p o x v)
    (hv : v ≠ .inactive ∨ o = false) : Denotes p x v := by
  rcases hv with hv | hv
  · exact converted_denotes h hv
  · subst hv
    exact convert_denotes (by simpa [ConvertedCell] using h)

/-- **C78** Sampling several parameters jointly: on success the array contains exactly `n` rows, each of
them a whole row of some draw, in the order of the draws, no row being used twice. -/
theorem C78_rows_intact (d : Dist) (t : Nat) (ps : List Param) (n : Nat) (out res : List Value)
    (hd : Shaped d) (hps : ps.length = d.dim) (hdim : d.dim ≠ 1) (hout : out.length = n * d.dim)
    (h : jointSamples d t ps n out = .ok res) :
    res.length = n * d.dim ∧ ∃ src : List (Nat × Nat × Nat), src.length = n ∧ src.Pairwise Before ∧
      ∀ (r k m j : Nat), src[r]? = some (k, m, j) → RowFrom d t ps res r k m j := by
  by_cases hn : n = 0
  · subst hn
    unfold jointSamples at h
    rw [if_pos rfl] at h
    cases h
    exact ⟨hout, [], rfl, .nil, by simp⟩
  · exact joint_rows (G := Denotes) d t ps n out res hd hps hn hdim hout h
      (fun overs _ k m cols _ i p o c x v _ _ _ _ hcv hv => converted_denotes' hcv hv)

section
variable (ops : FloatOps) (jen : Bytes → BitVec 32) (little : Bool)

theorem draws_respects {d : Dist} (hd : Shaped d) (hb : InBounds d) (t : Nat) {b : Interval}
    (h0 : d.bounds[0]? = some b) : Respects b (d.draws t) := by
  intro k n vs h
  unfold Dist.draws at h
  obtain ⟨cols, hc, h⟩ := bind_eq_ok h
  cases cols with
  | nil => cases h
  | cons c cs =>
    cases h
    exact ⟨(hd.2 t k n _ hc).2 _ (by simp), hb t k n _ hc 0 _ b rfl h0⟩

/-- **C78** Every cell returned is a legal value of its parameter (in particular no cell is inactive), when
the distribution respects its declared bounds. -/
theorem C78_cells_legal (d : Dist) (t : Nat) (ps : List Param) (n : Nat) (out res : List Value)
    (hd : Shaped d) (hb : InBounds d) (hps : ps.length = d.dim) (hu : ∀ p ∈ ps, Usable ops jen little p)
    (hout : out.length = n * d.dim) (h : jointSamples d t ps n out = .ok res) :
    res.length = n * d.dim ∧
    ∀ (r i : Nat) p v, r < n → ps[i]? = some p → res[r * d.dim + i]? = some v →
      checkValue jen little p v = true := by
  by_cases hn : n = 0
  · subst hn
    unfold jointSamples at h
    rw [if_pos rfl] at h
    cases h
    exact ⟨hout, by omega⟩
  by_cases hdim : d.dim = 1
  · unfold jointSamples at h
    rw [if_neg hn, if_pos hdim] at h
    match ps, hbs : d.bounds, hps, hu, h with
    | [], _, hps, _, _ => simp [hdim] at hps
    | p :: _ :: _, _, hps, _, _ => simp [hdim] at hps
    | [p], [], _, _, h => cases h
    | [p], b :: bs, _, hu, h =>
      obtain ⟨hc, hp⟩ := hu p (by simp)
      obtain ⟨h1, h2⟩ := C36_samples_legal ops jen little p hc hp b (d.draws t)
        (draws_respects hd hb t (by rw [hbs]; rfl)) n res h
      refine ⟨by rw [hdim]; omega, ?_⟩
      intro r i q v hr hq hv
      cases i with
      | zero => simp at hq; subst hq; exact h2 v (List.mem_of_getElem? hv)
      | succ i => simp at hq
  · obtain ⟨h1, src, h2, -, h4⟩ := joint_rows (G := fun p _ v => Legal p v) d t ps n out res hd hps hn hdim hout h
      (fun overs hov k m cols hc i p o c x v hp ho hcc hx hcv hv => by
        refine converted_legal ops jen little (hu p (List.mem_of_getElem? hp)) hcv hv ?_
        intro hof
        subst hof
        have hi := (List.getElem?_eq_some_iff.1 hp).1
        have hbi : d.bounds[i]? = some (d.bounds[i]'(by rw [hd.1]; omega)) := List.getElem?_eq_getElem _
        exact proper_mem_interval hov hp hbi ho (hu p (List.mem_of_getElem? hp)).2
          (hb t k m cols hc i c _ hcc hbi x hx))
    refine ⟨h1, ?_⟩
    intro r i p v hr hp hv
    rcases hs : src[r]'(by omega) with ⟨k, m, j⟩
    obtain ⟨cols, -, hrow⟩ := h4 r k m j (by rw [List.getElem?_eq_getElem (by omega), hs])
    obtain ⟨c, x, v', -, -, hv', hl⟩ := hrow i p hp
    rw [hv] at hv'
    cases hv'
    exact (checkValue_iff p v).2 hl

/-- Converting a draw succeeds, unless one of the parameters is a string parameter. -/
theorem convertColumns_total {ps : List Param} {overs : List Bool} {cols : List (List (BitVec 64))}
    (hu : ∀ p ∈ ps, Usable ops jen little p)
    (hin : ∀ (i : Nat) p c, ps[i]? = some p → overs[i]? = some false → cols[i]? = some c →
      ∀ x ∈ c, Mem p.interval x) :
    (∃ ds, convertColumns ps overs cols = .ok ds) ∨
    (convertColumns ps overs cols = .err .unsupportedOperation ∧ ∃ p ∈ ps, p.kind = .string) := by
  induction ps generalizing overs cols with
  | nil => exact .inl ⟨[], by unfold convertColumns; rfl⟩
  | cons p ps ih =>
    cases overs with
    | nil => exact .inl ⟨[], by unfold convertColumns; rfl⟩
    | cons o overs =>
      cases cols with
      | nil => exact .inl ⟨[], by unfold convertColumns; rfl⟩
      | cons c cols =>
        have h1 : (∃ vs, convertSamples p o c = .ok vs) ∨
            (convertSamples p o c = .err .unsupportedOperation ∧ p.kind = .string) := by
          unfold convertSamples
          split
          · exact .inl ⟨[], rfl⟩
          by_cases hk : p.kind = .string
          · rw [hk]; exact .inr ⟨rfl, rfl⟩
          refine .inl ?_
          have hgo : ∃ vs, (if o = true then Out.ok (c.map fun x => (p.keep x).getD .inactive)
              else convertAll p c) = .ok vs := by
            cases o with
            | true => exact ⟨_, rfl⟩
            | false =>
              obtain ⟨vs, hv, -⟩ := convertAll_ok (p := p) (xs := c) fun x hx =>
                convert_of_mem hk (created_len ops jen little (hu p (by simp)).1)
                  (hin 0 p c rfl rfl rfl x hx)
              exact ⟨vs, hv⟩
          cases hk' : p.kind
          · exact hgo
          · exact hgo
          · exact absurd hk' hk
        unfold convertColumns
        rcases h1 with ⟨vs, h1⟩ | ⟨h1, hs⟩
        · rw [h1, Out.bind_ok]
          rcases ih (overs := overs) (cols := cols) (fun q hq => hu q (by simp [hq]))
            (fun i q c' a b e => hin (i + 1) q c' (by simpa using a) (by simpa using b) (by simpa using e)) with
            ⟨ds, h2⟩ | ⟨h2, q, hq, hs⟩
          · rw [h2]; exact .inl ⟨_, rfl⟩
          · rw [h2]; exact .inr ⟨rfl, q, by simp [hq], hs⟩
        · rw [h1]; exact .inr ⟨rfl, p, by simp, hs⟩

/-- The outcomes of the retry loop that are not successes. -/
theorem jointRetry_bad {d : Dist} {t : Nat} {ps : List Param} {overs : List Bool} (hd : Shaped d)
    (hb : InBounds d) (hps : ps.length = d.dim) (hu : ∀ p ∈ ps, Usable ops jen little p)
    (hov : checkOversamplings d.bounds (ps.map Param.interval) = .ok overs)
    (n fuel k coeff found : Nat) (out : List Value) (hfuel : 32 < coeff * 2 ^ fuel)
    (hlen : n * d.dim ≤ out.length) (hfn : found ≤ n) :
    (jointRetry d t ps overs n fuel k coeff found out = .ub → ∃ k m, d.soa t k m = .ub) ∧
    (∀ e, jointRetry d t ps overs n fuel k coeff found out = .err e →
      e = .samplingUnsuccessful ∨ (∃ k m, d.soa t k m = .err e) ∨
      (e = .unsupportedOperation ∧ ∃ p ∈ ps, p.kind = .string)) := by
  have hol : overs.length = d.dim := by
    rw [checkOversamplings_length hov]; simp [hps, hd.1]
  induction fuel generalizing k coeff found out with
  | zero =>
    unfold jointRetry
    split
    · exact ⟨fun h => (nomatch h), fun e h => (nomatch h)⟩
    · rw [if_pos (by simpa using hfuel)]
      refine ⟨fun h => (nomatch h), fun e h => ?_⟩
      cases h; exact .inl rfl
  | succ fuel ih =>
    unfold jointRetry
    split
    · exact ⟨fun h => (nomatch h), fun e h => (nomatch h)⟩
    split
    · refine ⟨fun h => (nomatch h), fun e h => ?_⟩
      cases h; exact .inl rfl
    simp only
    cases hc : d.soa t k ((n - found) * coeff) with
    | ub => exact ⟨fun _ => ⟨_, _, hc⟩, fun e h => (nomatch h)⟩
    | err e' =>
      refine ⟨fun h => (nomatch h), fun e h => ?_⟩
      cases h; exact .inr (.inl ⟨_, _, hc⟩)
    | ok cols =>
      rw [Out.bind_ok]
      have hin : ∀ (i : Nat) p c, ps[i]? = some p → overs[i]? = some false → cols[i]? = some c →
          ∀ x ∈ c, Mem p.interval x := by
        intro i p c hp ho hcc x hx
        have hi := (List.getElem?_eq_some_iff.1 hp).1
        have hbi : d.bounds[i]? = some (d.bounds[i]'(by rw [hd.1]; omega)) := List.getElem?_eq_getElem _
        exact proper_mem_interval hov hp hbi ho (hu p (List.mem_of_getElem? hp)).2
          (hb t k _ cols hc i c _ hcc hbi x hx)
      rcases convertColumns_total ops jen little hu hin with ⟨ds, hds⟩ | ⟨hds, hs⟩
      · rw [hds, Out.bind_ok]
        have hblk := block_of_convert (G := fun _ _ _ => True) hd hps hol hc hds
          (fun _ _ _ _ _ _ _ _ _ _ _ _ => trivial)
        obtain ⟨f', o', hcp, hl', hf'⟩ : ∃ f' o', copyRows ds d.dim (some n) ((n - found) * coeff) 0 found out =
            .ok (f', o') ∧ o'.length = out.length ∧ f' ≤ n := by
          have := copyRows_total hblk.total n (some n) (.inl rfl) ((n - found) * coeff) 0 found out
            (by omega) hlen (by simp) hfn
          exact this
        rw [hcp, Out.bind_ok]
        exact ih (k + 1) (coeff * 2) f' o' (by rw [Nat.pow_succ] at hfuel; rw [Nat.mul_assoc, Nat.mul_comm 2]; exact hfuel) (by omega) hf'
      · rw [hds]
        refine ⟨fun h => (nomatch h), fun e h => ?_⟩
        cases h; exact .inr (.inr ⟨rfl, hs⟩)

/-- **C78** Otherwise the call reports SAMPLING_UNSUCCESSFUL, a failure of the distribution itself, domains
that cannot be compared with the distribution's bounds, or a string parameter; it is undefined only if the
distribution is, or if comparing the domains overflows. -/
theorem C78_failures (d : Dist) (t : Nat) (ps : List Param) (n : Nat) (out : List Value)
    (hd : Shaped d) (hb : InBounds d) (hps : ps.length = d.dim) (hpos : 0 < d.dim)
    (hu : ∀ p ∈ ps, Usable ops jen little p) (hout : out.length = n * d.dim) :
    (∀ e, jointSamples d t ps n out = .err e →
      e = .samplingUnsuccessful ∨ (∃ k m, d.soa t k m = .err e) ∨
      (∃ b p, b ∈ d.bounds ∧ p ∈ ps ∧ checkOversampling b p.interval = .err e) ∨
      (e = .unsupportedOperation ∧ ∃ p ∈ ps, p.kind = .string)) ∧
    (jointSamples d t ps n out = .ub →
      (∃ k m, d.soa t k m = .ub) ∨
      ∃ b p, b ∈ d.bounds ∧ p ∈ ps ∧ checkOversampling b p.interval = .ub) := by
  unfold jointSamples
  by_cases hn : n = 0
  · rw [if_pos hn]
    exact ⟨fun e h => (nomatch h), fun h => (nomatch h)⟩
  rw [if_neg hn]
  by_cases hdim : d.dim = 1
  · rw [if_pos hdim]
    match ps, hbs : d.bounds, hps, hu with
    | [], _, hps, _ => simp [hdim] at hps
    | p :: _ :: _, _, hps, _ => simp [hdim] at hps
    | [p], [], _, _ => have := hd.1; simp [hbs, hdim] at this
    | [p], b :: bs, _, hu =>
      obtain ⟨hc, hp⟩ := hu p (by simp)
      have hr := draws_respects hd hb t (b := b) (by rw [hbs]; rfl)
      have hdr : ∀ k m e, d.draws t k m = .err e → d.soa t k m = .err e := by
        intro k m e he
        unfold Dist.draws at he
        cases hs : d.soa t k m with
        | err e' => rw [hs] at he; cases he; rfl
        | ub => rw [hs] at he; cases he
        | ok cols => rw [hs] at he; cases cols <;> cases he
      refine ⟨fun e h => ?_, fun h => ?_⟩
      · rcases C36_failures ops jen little p hc b (d.draws t) hr hp n e h with h | ⟨k, m, h⟩ | h | ⟨h1, h2⟩
        · exact .inl h
        · exact .inr (.inl ⟨k, m, hdr k m e h⟩)
        · exact .inr (.inr (.inl ⟨b, p, by simp, by simp, h⟩))
        · exact .inr (.inr (.inr ⟨h2, p, by simp, h1⟩))
      · by_cases hov : checkOversampling b p.interval = .ub
        · exact .inr ⟨b, p, by simp, by simp, hov⟩
        · refine .inl ?_
          refine Classical.byContradiction fun hne => ?_
          refine C36_defined ops jen little p hc b (d.draws t) hr hp n ?_ hov h
          intro k m hk
          unfold Dist.draws at hk
          cases hs : d.soa t k m with
          | err e' => rw [hs] at hk; cases hk
          | ub => exact hne ⟨k, m, hs⟩
          | ok cols =>
            rw [hs] at hk
            cases cols with
            | nil => have := (hd.2 t k m _ hs).1; simp [hdim] at this
            | cons c cs => cases hk
  rw [if_neg hdim]
  unfold jointMany
  have hcheck : ∀ bs (qs : List Param),
      (∀ e, checkOversamplings bs (qs.map Param.interval) = .err e →
        ∃ b p, b ∈ bs ∧ p ∈ qs ∧ checkOversampling b p.interval = .err e) ∧
      (checkOversamplings bs (qs.map Param.interval) = .ub →
        ∃ b p, b ∈ bs ∧ p ∈ qs ∧ checkOversampling b p.interval = .ub) := by
    intro bs
    induction bs with
    | nil =>
      intro qs
      unfold checkOversamplings
      exact ⟨fun e h => (nomatch h), fun h => (nomatch h)⟩
    | cons b bs ih =>
      intro qs
      cases qs with
      | nil =>
        unfold checkOversamplings
        exact ⟨fun e h => (nomatch h), fun h => (nomatch h)⟩
      | cons q qs =>
        rw [List.map_cons]
        unfold checkOversamplings
        cases ho : checkOversampling b q.interval with
        | err e' =>
          refine ⟨fun e h => ?_, fun h => (nomatch h)⟩
          cases h
          exact ⟨b, q, by simp, by simp, ho⟩
        | ub =>
          refine ⟨fun e h => (nomatch h), fun h => ?_⟩
          exact ⟨b, q, by simp, by simp, ho⟩
        | ok o =>
          rw [Out.bind_ok]
          cases hos : checkOversamplings bs (qs.map Param.interval) with
          | err e' =>
            refine ⟨fun e h => ?_, fun h => (nomatch h)⟩
            cases h
            obtain ⟨b', p', h1, h2, h3⟩ := (ih qs).1 e' hos
            exact ⟨b', p', by simp [h1], by simp [h2], h3⟩
          | ub =>
            refine ⟨fun e h => (nomatch h), fun h => ?_⟩
            obtain ⟨b', p', h1, h2, h3⟩ := (ih qs).2 hos
            exact ⟨b', p', by simp [h1], by simp [h2], h3⟩
          | ok os => exact ⟨fun e h => (nomatch h), fun h => (nomatch h)⟩
  cases hov : checkOversamplings d.bounds (ps.map Param.interval) with
  | err e' =>
    refine ⟨fun e h => ?_, fun h => (nomatch h)⟩
    cases h
    obtain ⟨b, p, h1, h2, h3⟩ := (hcheck d.bounds ps).1 e' hov
    exact .inr (.inr (.inl ⟨b, p, h1, h2, h3⟩))
  | ub =>
    refine ⟨fun e h => (nomatch h), fun h => ?_⟩
    exact .inr ((hcheck d.bounds ps).2 hov)
  | ok overs =>
    have hol : overs.length = d.dim := by
      rw [checkOversamplings_length hov]; simp [hps, hd.1]
    rw [Out.bind_ok]
    cases hc : d.soa t 0 n with
    | err e' =>
      refine ⟨fun e h => ?_, fun h => (nomatch h)⟩
      cases h; exact .inr (.inl ⟨_, _, hc⟩)
    | ub => exact ⟨fun e h => (nomatch h), fun _ => .inl ⟨_, _, hc⟩⟩
    | ok cols =>
      rw [Out.bind_ok]
      have hin : ∀ (i : Nat) p c, ps[i]? = some p → overs[i]? = some false → cols[i]? = some c →
          ∀ x ∈ c, Mem p.interval x := by
        intro i p c hp ho hcc x hx
        have hi := (List.getElem?_eq_some_iff.1 hp).1
        have hbi : d.bounds[i]? = some (d.bounds[i]'(by rw [hd.1]; omega)) := List.getElem?_eq_getElem _
        exact proper_mem_interval hov hp hbi ho (hu p (List.mem_of_getElem? hp)).2
          (hb t 0 _ cols hc i c _ hcc hbi x hx)
      rcases convertColumns_total ops jen little hu hin with ⟨ds, hds⟩ | ⟨hds, hs⟩
      · rw [hds, Out.bind_ok]
        have hblk := block_of_convert (G := fun _ _ _ => True) hd hps hol hc hds
          (fun _ _ _ _ _ _ _ _ _ _ _ _ => trivial)
        unfold jointFinish
        split
        · obtain ⟨f', o', hcp, hl', hf'⟩ := copyRows_total hblk.total n none (.inr rfl) n 0 0 out
            (by omega) (by omega) (by simp) (by omega)
          rw [hcp, Out.bind_ok]
          obtain ⟨q1, q2⟩ := jointRetry_bad ops jen little hd hb hps hu hov n 6 1 2 f' o' (t := t)
            (by decide) (by omega) hf'
          refine ⟨fun e h => ?_, fun h => .inl (q1 h)⟩
          rcases q2 e h with h | h | h
          · exact .inl h
          · exact .inr (.inl h)
          · exact .inr (.inr (.inr h))
        · obtain ⟨res', r1, -⟩ := transposeRows_spec hblk.total n 0 out (by omega) (by omega)
            (by intro _ _ h; omega)
          rw [r1]
          exact ⟨fun e h => (nomatch h), fun h => (nomatch h)⟩
      · rw [hds]
        refine ⟨fun e h => ?_, fun h => (nomatch h)⟩
        cases h; exact .inr (.inr (.inr ⟨rfl, hs⟩))

end

theorem jointRetry_congr {d₁ d₂ : Dist} {t : Nat} {ps : List Param} {overs : List Bool} (hdim : d₁.dim = d₂.dim)
    (n fuel k coeff found : Nat) (out : List Value) (hk : k + fuel ≤ 7) (hk1 : 1 ≤ k)
    (hcoeff : coeff = 2 ^ k)
    (h : ∀ k m, k < 6 → m ≤ 32 * n → d₁.soa t k m = d₂.soa t k m) :
    jointRetry d₁ t ps overs n fuel k coeff found out = jointRetry d₂ t ps overs n fuel k coeff found out := by
  induction fuel generalizing k coeff found out with
  | zero => unfold jointRetry; rfl
  | succ fuel ih =>
    conv => lhs; unfold jointRetry
    conv => rhs; unfold jointRetry
    split
    · rfl
    split
    · rfl
    · rename_i hlt
      have hk5 : k < 6 := by
        refine Nat.lt_of_not_le fun hge => hlt ?_
        have : 2 ^ 6 ≤ 2 ^ k := Nat.pow_le_pow_right (by decide) hge
        omega
      have hm : (n - found) * coeff ≤ 32 * n := by
        rw [Nat.mul_comm]
        exact Nat.mul_le_mul (by omega) (by omega)
      simp only
      rw [h k _ hk5 hm, hdim]
      congr 1
      funext cols
      congr 1
      funext ds
      congr 1
      funext r
      exact ih (k + 1) (coeff * 2) r.1 r.2 (by omega) (by omega) (by rw [hcoeff, Nat.pow_succ])

/-- **C78** The number of draws is bounded: the result depends on at most six draws, of at most `32 n` rows
each. -/
theorem C78_draws_bounded (d₁ d₂ : Dist) (t : Nat) (ps : List Param) (n : Nat) (out : List Value)
    (hdim : d₁.dim = d₂.dim) (hbounds : d₁.bounds = d₂.bounds)
    (h : ∀ k m, k < 6 → m ≤ 32 * n → d₁.soa t k m = d₂.soa t k m) :
    jointSamples d₁ t ps n out = jointSamples d₂ t ps n out := by
  unfold jointSamples
  split
  · rfl
  rw [hdim, hbounds]
  split
  · cases ps with
    | nil => rfl
    | cons p ps =>
      cases d₂.bounds with
      | nil => rfl
      | cons b bs =>
        exact C36_draws_bounded p b n _ _ fun k m hk hm => by
          unfold Dist.draws
          rw [h k m hk hm]
  · unfold jointMany
    rw [hbounds, h 0 n (by omega) (by omega)]
    congr 1
    funext overs
    congr 1
    funext cols
    congr 1
    funext ds
    unfold jointFinish
    rw [hdim]
    split
    · congr 1
      funext r
      exact jointRetry_congr hdim n 6 1 2 r.1 r.2 (by omega) (by omega) rfl h
    · rfl

/-! An instance: two parameters over `[0, 10)`, a distribution over `[0, 20)²`; the first draw of two rows
contains one row out of the domain, so a second draw is made. -/

def jointDist : Dist :=
  ⟨7#64, 2, [⟨.int, 0#64, 20#64, 1#32, 0#32⟩, ⟨.int, 0#64, 20#64, 1#32, 0#32⟩],
    fun _ k m => .ok [(List.range m).map fun i => BitVec.ofNat 64 ((i * 13 + k) % 20),
      (List.range m).map fun i => BitVec.ofNat 64 ((i + 3 * k) % 20)]⟩

def jointParam : Param := ⟨[65#8], .int 3#64, .numerical ⟨.int, 0#64, 10#64, 1#32, 0#32⟩ 0#64⟩

example : jointSamples jointDist 0 [jointParam, jointParam] 2 (List.replicate 4 .none) =
    .ok [.int 0#64, .int 0#64, .int 1#64, .int 3#64] := by decide

example : Shaped jointDist ∧ InBounds jointDist := by
  refine ⟨⟨rfl, ?_⟩, ?_⟩
  · intro t k n cols h
    cases h
    simp [jointDist]
  · intro t k n cols h i c b hc hb x hx
    cases h
    have hall : ∀ m : Fin 20, (Interval.mk .int 0#64 20#64 1#32 0#32).include (BitVec.ofNat 64 m.val) = true := by
      decide
    have hmem : ∀ m : Nat, Mem ⟨.int, 0#64, 20#64, 1#32, 0#32⟩ (BitVec.ofNat 64 (m % 20)) := fun m => by
      rw [← C27_membership_exact]; exact hall ⟨m % 20, Nat.mod_lt _ (by decide)⟩
    match i, hc, hb with
    | 0, hc, hb =>
      simp [jointDist] at hc hb
      subst hc hb
      obtain ⟨y, -, rfl⟩ := List.mem_map.1 hx
      exact hmem _
    | 1, hc, hb =>
      simp [jointDist] at hc hb
      subst hc hb
      obtain ⟨y, -, rfl⟩ := List.mem_map.1 hx
      exact hmem _
    | i + 2, hc, hb => simp [jointDist] at hb

example (ops : FloatOps) (jen : Bytes → BitVec 32) : Usable ops jen true jointParam :=
  ⟨.numerical (t := .int) (lower := 0#64) (upper := 10#64) (quantization := 0#64) (default := 3#64) (name := [65#8])
    (by rfl), proper_int rfl⟩

end CCS.Props
