import Verif.Spec.Joint
import Verif.Lemmas.Param
import Verif.Props.Interval

/-!
# Lemmas on joint sampling
-/

namespace CCS

open Spec

/-! ### Values of raw numbers -/

theorem keep_denotes {p : Param} {x : BitVec 64} {v : Value} (h : p.keep x = some v) : Denotes p x v := by
  unfold Param.keep at h
  unfold Denotes
  cases hk : p.kind with
  | numerical iv q =>
    rw [hk] at h
    simp only at h ⊢
    split at h
    · cases ht : iv.type <;> rw [ht] at h <;> simp at h <;> simp [h]
    · cases h
  | categorical k vals =>
    rw [hk] at h
    simp only at h ⊢
    split at h
    · rename_i h0
      refine ⟨h0, ?_⟩
      have : x.toInt.toNat = x.toNat := by
        rw [BitVec.toInt_eq_toNat_cond] at h0 ⊢
        split <;> rename_i hc
        · simp
        · rw [if_neg hc] at h0; have := x.isLt; omega
      rw [this]; exact h
    · cases h
  | string => rw [hk] at h; cases h

theorem convert_denotes {p : Param} {x : BitVec 64} {v : Value} (h : p.convert x = .ok v) :
    Denotes p x v := by
  unfold Param.convert at h
  unfold Denotes
  cases hk : p.kind with
  | numerical iv q =>
    rw [hk] at h
    simp only at h ⊢
    cases ht : iv.type <;> rw [ht] at h <;> simp at h <;> simp [h]
  | categorical k vals =>
    rw [hk] at h
    simp only at h ⊢
    split at h
    · cases h
    · rename_i h0
      have h0 : 0 ≤ x.toInt := by omega
      refine ⟨h0, ?_⟩
      have : x.toInt.toNat = x.toNat := by
        rw [BitVec.toInt_eq_toNat_cond] at h0 ⊢
        split <;> rename_i hc
        · simp
        · rw [if_neg hc] at h0; have := x.isLt; omega
      rw [this]
      split at h
      · rename_i w hw; cases h; exact hw
      · cases h
  | string => rw [hk] at h; cases h

theorem convertAll_get {p : Param} {xs : List (BitVec 64)} {vs : List Value} (h : convertAll p xs = .ok vs) :
    vs.length = xs.length ∧
    ∀ (j : Nat) x, xs[j]? = some x → ∃ v, vs[j]? = some v ∧ p.convert x = .ok v := by
  induction xs generalizing vs with
  | nil => cases h; simp
  | cons y ys ih =>
    obtain ⟨v, hv, h⟩ := bind_eq_ok h
    obtain ⟨ws, hw, h⟩ := bind_eq_ok h
    cases h
    obtain ⟨h1, h2⟩ := ih hw
    refine ⟨by simp [h1], ?_⟩
    intro j x hx
    cases j with
    | zero => simp at hx; subst hx; exact ⟨v, rfl, hv⟩
    | succ j => simpa using h2 j x (by simpa using hx)

/-- What a column of datums contains, cell by cell. -/
def ConvertedCell (p : Param) (o : Bool) (x : BitVec 64) (v : Value) : Prop :=
  if o then v = (p.keep x).getD .inactive else p.convert x = .ok v

theorem convertSamples_get {p : Param} {o : Bool} {xs : List (BitVec 64)} {vs : List Value}
    (h : convertSamples p o xs = .ok vs) :
    vs.length = xs.length ∧
    ∀ (j : Nat) x, xs[j]? = some x → ∃ v, vs[j]? = some v ∧ ConvertedCell p o x v := by
  unfold convertSamples at h
  split at h
  · rename_i h0
    cases h
    have : xs = [] := List.eq_nil_of_length_eq_zero h0
    subst this
    simp
  have h : (if o = true then Out.ok (xs.map fun x => (p.keep x).getD .inactive) else convertAll p xs) = .ok vs := by
    cases hk : p.kind <;> rw [hk] at h
    · exact h
    · exact h
    · cases h
  cases o with
  | true =>
    rw [if_pos rfl] at h
    cases h
    refine ⟨by simp, fun j x hx => ?_⟩
    simp [hx, ConvertedCell]
  | false =>
    rw [if_neg (by decide)] at h
    obtain ⟨h1, h2⟩ := convertAll_get h
    refine ⟨h1, fun j x hx => ?_⟩
    obtain ⟨v, a, b⟩ := h2 j x hx
    exact ⟨v, a, by simpa [ConvertedCell] using b⟩

theorem convertColumns_get {ps : List Param} {os : List Bool} {cols : List (List (BitVec 64))}
    {ds : List (List Value)} (h : convertColumns ps os cols = .ok ds) :
    ∀ (i : Nat) p o c, ps[i]? = some p → os[i]? = some o → cols[i]? = some c →
      ∃ vs, ds[i]? = some vs ∧ vs.length = c.length ∧
        ∀ (j : Nat) x, c[j]? = some x → ∃ v, vs[j]? = some v ∧ ConvertedCell p o x v := by
  induction ps generalizing os cols ds with
  | nil => intro i p o c hp; simp at hp
  | cons p0 ps ih =>
    cases os with
    | nil => intro i p o c _ ho; simp at ho
    | cons o0 os =>
      cases cols with
      | nil => intro i p o c _ _ hc; simp at hc
      | cons c0 cols =>
        obtain ⟨vs, hv, h⟩ := bind_eq_ok h
        obtain ⟨vss, hw, h⟩ := bind_eq_ok h
        cases h
        intro i p o c hp ho hc
        cases i with
        | zero =>
          simp at hp ho hc
          subst hp ho hc
          obtain ⟨a, b⟩ := convertSamples_get hv
          exact ⟨vs, rfl, a, b⟩
        | succ i => simpa using ih hw i p o c (by simpa using hp) (by simpa using ho) (by simpa using hc)

theorem checkOversamplings_length {ds ivs : List Interval} {os : List Bool}
    (h : checkOversamplings ds ivs = .ok os) : os.length = min ds.length ivs.length := by
  induction ds generalizing ivs os with
  | nil => unfold checkOversamplings at h; cases h; simp
  | cons d ds ih =>
    cases ivs with
    | nil => unfold checkOversamplings at h; cases h; simp
    | cons iv ivs =>
      obtain ⟨o, ho, h⟩ := bind_eq_ok h
      obtain ⟨os', ho', h⟩ := bind_eq_ok h
      cases h
      simp [ih ho']

/-! ### Copying rows -/

/-- A block of datums: `dim` columns of `m` cells; every accepted cell comes from the draw `cols` with
property `G`. -/
structure Block (G : Param → BitVec 64 → Value → Prop) (ps : List Param) (dim m : Nat)
    (cols : List (List (BitVec 64))) (ds : List (List Value)) : Prop where
  total : ∀ i j, i < dim → j < m → ∃ v, cell ds i j = some v
  good : ∀ i j v, i < dim → cell ds i j = some v → v ≠ .inactive →
    ∃ p c x, ps[i]? = some p ∧ cols[i]? = some c ∧ c[j]? = some x ∧ G p x v

theorem copyRow_spec {ds : List (List Value)} {dim j found m : Nat}
    (ht : ∀ i j, i < dim → j < m → ∃ v, cell ds i j = some v) (hj : j < m)
    (todo i : Nat) (out : List Value) (hi : i + todo = dim) (hlen : (found + 1) * dim ≤ out.length) :
    ∃ b out', copyRow ds dim j found todo i out = .ok (b, out') ∧ out'.length = out.length ∧
      (∀ q, q < found * dim + i → out'[q]? = out[q]?) ∧
      (b = true → ∀ i', i ≤ i' → i' < dim →
        out'[found * dim + i']? = cell ds i' j ∧ cell ds i' j ≠ some .inactive) := by
  induction todo generalizing i out with
  | zero =>
    refine ⟨true, out, rfl, rfl, fun _ _ => rfl, ?_⟩
    intro _ i' h1 h2; omega
  | succ todo ih =>
    obtain ⟨v, hv⟩ := ht i j (by omega) hj
    unfold copyRow
    rw [hv]
    simp only
    by_cases hin : v = .inactive
    · rw [if_pos hin]
      exact ⟨false, out, rfl, rfl, fun _ _ => rfl, by simp⟩
    · have hlt : found * dim + i < out.length := by
        rw [Nat.add_mul] at hlen; omega
      rw [if_neg hin, if_pos hlt]
      obtain ⟨b, out', h1, h2, h3, h4⟩ := ih (i + 1) (out.set (found * dim + i) v) (by omega) (by simpa using hlen)
      refine ⟨b, out', h1, by simpa using h2, ?_, ?_⟩
      · intro q hq
        rw [h3 q (by omega), List.getElem?_set_ne (by omega)]
      · intro hb i' hi' hd
        rcases Nat.lt_or_ge i i' with h | h
        · exact h4 hb i' h hd
        · have : i' = i := by omega
          subst this
          rw [h3 _ (by omega), List.getElem?_set_self hlt, hv]
          exact ⟨rfl, by simpa using hin⟩

/-- The first `found` rows of `out` are accounted for by `src`. -/
structure Accounted (G : Param → BitVec 64 → Value → Prop) (d : Dist) (t : Nat) (ps : List Param)
    (out : List Value) (src : List (Nat × Nat × Nat)) : Prop where
  order : src.Pairwise Before
  rows : ∀ (r k m j : Nat), src[r]? = some (k, m, j) → ∃ cols, d.soa t k m = .ok cols ∧
    ∀ (i : Nat) p, ps[i]? = some p → ∃ c x v, cols[i]? = some c ∧ c[j]? = some x ∧
      out[r * d.dim + i]? = some v ∧ v ≠ .inactive ∧ G p x v

theorem row_lt {r found dim i : Nat} (hr : r < found) (hi : i < dim) : r * dim + i < found * dim := by
  calc r * dim + i < (r + 1) * dim := by rw [Nat.add_mul]; omega
    _ ≤ found * dim := Nat.mul_le_mul_right _ hr

theorem copyRows_spec {G : Param → BitVec 64 → Value → Prop} {d : Dist} {t : Nat} {ps : List Param}
    {k m : Nat} {cols : List (List (BitVec 64))} {ds : List (List Value)} (hps : ps.length = d.dim)
    (hb : Block G ps d.dim m cols ds) (hsoa : d.soa t k m = .ok cols) (n : Nat) (limit : Option Nat)
    (hl : limit = some n ∨ limit = none)
    (todo j found : Nat) (out : List Value) (src : List (Nat × Nat × Nat))
    (hj : j + todo = m) (hlen : n * d.dim ≤ out.length)
    (hroom : limit = none → found + todo ≤ n) (hfn : found ≤ n)
    (hsrc : src.length = found) (hacc : Accounted G d t ps out src)
    (hpos : ∀ s ∈ src, s.1 < k ∨ (s.1 = k ∧ s.2.2 < j)) :
    ∃ found' out' src', copyRows ds d.dim limit todo j found out = .ok (found', out') ∧
      out'.length = out.length ∧ found' ≤ n ∧ src'.length = found' ∧ Accounted G d t ps out' src' ∧
      (∀ s ∈ src', s.1 < k ∨ s.1 = k) := by
  induction todo generalizing j found out src with
  | zero =>
    refine ⟨found, out, src, rfl, rfl, hfn, hsrc, hacc, ?_⟩
    intro s hs
    rcases hpos s hs with h | h
    · exact .inl h
    · exact .inr h.1
  | succ todo ih =>
    unfold copyRows
    by_cases hstop : limit.any (fun n => decide (n ≤ found)) = true
    · rw [if_pos hstop]
      refine ⟨found, out, src, rfl, rfl, hfn, hsrc, hacc, ?_⟩
      intro s hs
      rcases hpos s hs with h | h
      · exact .inl h
      · exact .inr h.1
    rw [if_neg hstop]
    have hlt : found < n := by
      rcases hl with h | h
      · subst h; simp at hstop; exact hstop
      · have := hroom h; omega
    have hroomrow : (found + 1) * d.dim ≤ out.length :=
      Nat.le_trans (Nat.mul_le_mul_right _ hlt) hlen
    obtain ⟨b, out', h1, h2, h3, h4⟩ := copyRow_spec hb.total (j := j) (by omega) d.dim 0 out (by omega) hroomrow
    rw [h1, Out.bind_ok]
    simp only
    have hkeep : Accounted G d t ps out' src := by
      refine ⟨hacc.order, ?_⟩
      intro r k' m' j' hr
      obtain ⟨cols', hc, hrow⟩ := hacc.rows r k' m' j' hr
      refine ⟨cols', hc, fun i p hp => ?_⟩
      obtain ⟨c, x, v, a1, a2, a3, a4, a5⟩ := hrow i p hp
      have hi : i < d.dim := by
        rw [← hps]; exact (List.getElem?_eq_some_iff.1 hp).1
      have hr' : r < found := by
        rw [← hsrc]; exact (List.getElem?_eq_some_iff.1 hr).1
      refine ⟨c, x, v, a1, a2, ?_, a4, a5⟩
      rw [h3 _ (by have := row_lt hr' hi; omega)]; exact a3
    cases b with
    | false =>
      simp only [Bool.false_eq_true, if_false]
      obtain ⟨f', o', s', g1, g2, g3⟩ := ih (j + 1) found out' src (by omega) (by omega)
        (fun h => by have := hroom h; omega) hfn hsrc hkeep
        (fun s hs => by rcases hpos s hs with h | h
                        · exact .inl h
                        · exact .inr ⟨h.1, by omega⟩)
      exact ⟨f', o', s', g1, by omega, g3⟩
    | true =>
      simp only [if_true]
      have hnew : Accounted G d t ps out' (src ++ [(k, m, j)]) := by
        refine ⟨?_, ?_⟩
        · rw [List.pairwise_append]
          refine ⟨hacc.order, by simp, ?_⟩
          intro a ha b hb'
          rw [List.mem_singleton] at hb'
          subst hb'
          exact hpos a ha
        · intro r k' m' j' hr
          rcases Nat.lt_or_ge r src.length with hlt' | hge
          · rw [List.getElem?_append_left hlt'] at hr
            exact hkeep.rows r k' m' j' hr
          · have hr0 : r = src.length := by
              have := (List.getElem?_eq_some_iff.1 hr).1
              simp at this; omega
            subst hr0
            simp at hr
            obtain ⟨rfl, rfl, rfl⟩ := hr
            refine ⟨cols, hsoa, fun i p hp => ?_⟩
            have hi : i < d.dim := by
              rw [← hps]; exact (List.getElem?_eq_some_iff.1 hp).1
            obtain ⟨v, hv⟩ := hb.total i j hi (by omega)
            obtain ⟨e1, e2⟩ := h4 rfl i (by omega) hi
            rw [hv] at e1 e2
            have hva : v ≠ .inactive := by simpa using e2
            obtain ⟨p', c, x, a1, a2, a3, a4⟩ := hb.good i j v hi hv hva
            rw [hp] at a1
            cases a1
            exact ⟨c, x, v, a2, a3, by rw [hsrc]; exact e1, hva, a4⟩
      obtain ⟨f', o', s', g1, g2, g3⟩ := ih (j + 1) (found + 1) out' (src ++ [(k, m, j)]) (by omega) (by omega)
        (fun h => by have := hroom h; omega) hlt (by simp [hsrc]) hnew
        (fun s hs => by
          rcases List.mem_append.1 hs with h | h
          · rcases hpos s h with h | h
            · exact .inl h
            · exact .inr ⟨h.1, by omega⟩
          · rw [List.mem_singleton] at h; subst h; exact .inr ⟨rfl, by simp⟩)
      exact ⟨f', o', s', g1, by omega, g3⟩

/-- Copying rows never leaves the arrays. -/
theorem copyRows_total {ds : List (List Value)} {dim m : Nat}
    (ht : ∀ i j, i < dim → j < m → ∃ v, cell ds i j = some v) (n : Nat) (limit : Option Nat)
    (hl : limit = some n ∨ limit = none)
    (todo j found : Nat) (out : List Value)
    (hj : j + todo = m) (hlen : n * dim ≤ out.length)
    (hroom : limit = none → found + todo ≤ n) (hfn : found ≤ n) :
    ∃ found' out', copyRows ds dim limit todo j found out = .ok (found', out') ∧
      out'.length = out.length ∧ found' ≤ n := by
  induction todo generalizing j found out with
  | zero => exact ⟨found, out, rfl, rfl, hfn⟩
  | succ todo ih =>
    unfold copyRows
    by_cases hstop : limit.any (fun n => decide (n ≤ found)) = true
    · rw [if_pos hstop]
      exact ⟨found, out, rfl, rfl, hfn⟩
    rw [if_neg hstop]
    have hlt : found < n := by
      rcases hl with h | h
      · subst h; simp at hstop; exact hstop
      · have := hroom h; omega
    obtain ⟨b, out', h1, h2, -⟩ := copyRow_spec ht (j := j) (by omega) dim 0 out (by omega)
      (Nat.le_trans (Nat.mul_le_mul_right _ hlt) hlen)
    rw [h1, Out.bind_ok]
    obtain ⟨f', o', g1, g2, g3⟩ := ih (j + 1) (if b then found + 1 else found) out' (by omega) (by omega)
      (fun h => by have := hroom h; split <;> omega) (by split <;> omega)
    exact ⟨f', o', g1, by omega, g3⟩

/-- Blocks come from the conversion of a draw. -/
theorem block_of_convert {G : Param → BitVec 64 → Value → Prop} {d : Dist} {t : Nat} {ps : List Param} {overs : List Bool}
    {k m : Nat} {cols : List (List (BitVec 64))} {ds : List (List Value)} (hd : Shaped d)
    (hps : ps.length = d.dim) (hov : overs.length = d.dim) (hsoa : d.soa t k m = .ok cols)
    (hconv : convertColumns ps overs cols = .ok ds)
    (hG : ∀ (i : Nat) p o c x v, ps[i]? = some p → overs[i]? = some o → cols[i]? = some c → x ∈ c →
      ConvertedCell p o x v → v ≠ .inactive → G p x v) :
    Block G ps d.dim m cols ds := by
  obtain ⟨hcl, hcn⟩ := hd.2 t k m cols hsoa
  have key : ∀ i, i < d.dim → ∃ p o c, ps[i]? = some p ∧ overs[i]? = some o ∧ cols[i]? = some c ∧ c.length = m := by
    intro i hi
    refine ⟨ps[i]'(by omega), overs[i]'(by omega), cols[i]'(by omega), ?_, ?_, ?_, ?_⟩
    · exact List.getElem?_eq_getElem _
    · exact List.getElem?_eq_getElem _
    · exact List.getElem?_eq_getElem _
    · exact hcn _ (List.getElem_mem _)
  constructor
  · intro i j hi hj
    obtain ⟨p, o, c, hp, ho, hc, hm⟩ := key i hi
    obtain ⟨vs, hvs, hl, hcell⟩ := convertColumns_get hconv i p o c hp ho hc
    obtain ⟨v, hv, -⟩ := hcell j c[j] (List.getElem?_eq_getElem (by omega))
    exact ⟨v, by unfold cell; rw [hvs]; exact hv⟩
  · intro i j v hi hv hva
    obtain ⟨p, o, c, hp, ho, hc, hm⟩ := key i hi
    obtain ⟨vs, hvs, hl, hcell⟩ := convertColumns_get hconv i p o c hp ho hc
    unfold cell at hv
    rw [hvs] at hv
    simp only at hv
    have hj : j < c.length := by rw [← hl]; exact (List.getElem?_eq_some_iff.1 hv).1
    obtain ⟨v', hv', hcc⟩ := hcell j c[j] (List.getElem?_eq_getElem hj)
    rw [hv] at hv'
    cases hv'
    exact ⟨p, c, c[j], hp, hc, List.getElem?_eq_getElem hj, hG i p o c _ v hp ho hc (List.getElem_mem _) hcc hva⟩

theorem jointRetry_spec {G : Param → BitVec 64 → Value → Prop} {d : Dist} {t : Nat} {ps : List Param}
    {overs : List Bool} (hd : Shaped d) (hps : ps.length = d.dim) (hov : overs.length = d.dim)
    (hG : ∀ k m cols, d.soa t k m = .ok cols → ∀ (i : Nat) p o c x v, ps[i]? = some p → overs[i]? = some o →
      cols[i]? = some c → x ∈ c → ConvertedCell p o x v → v ≠ .inactive → G p x v)
    (n fuel k coeff found : Nat) (out : List Value) (src : List (Nat × Nat × Nat)) (res : List Value)
    (hlen : n * d.dim ≤ out.length) (hfn : found ≤ n)
    (hsrc : src.length = found) (hacc : Accounted G d t ps out src) (hpos : ∀ s ∈ src, s.1 < k)
    (h : jointRetry d t ps overs n fuel k coeff found out = .ok res) :
    res.length = out.length ∧ ∃ src', src'.length = n ∧ Accounted G d t ps res src' := by
  induction fuel generalizing k coeff found out src with
  | zero =>
    unfold jointRetry at h
    split at h
    · cases h; exact ⟨rfl, src, by omega, hacc⟩
    · split at h <;> cases h
  | succ fuel ih =>
    unfold jointRetry at h
    split at h
    · cases h; exact ⟨rfl, src, by omega, hacc⟩
    · split at h
      · cases h
      · obtain ⟨cols, hc, h⟩ := bind_eq_ok h
        obtain ⟨ds, hds, h⟩ := bind_eq_ok h
        obtain ⟨r, hr, h⟩ := bind_eq_ok h
        have hb := block_of_convert (G := G) hd hps hov hc hds (hG _ _ _ hc)
        obtain ⟨f', o', s', e1, e2, e3, e4, e5, e6⟩ := copyRows_spec hps hb hc n (some n) (.inl rfl)
          ((n - found) * coeff) 0 found out src (by omega) hlen (by simp) hfn hsrc hacc
          (fun s hs => .inl (hpos s hs))
        rw [e1] at hr
        cases hr
        obtain ⟨g1, g2⟩ := ih (k + 1) (coeff * 2) f' o' s' (by omega) e3 e4 e5
          (fun s hs => by rcases e6 s hs with h | h <;> omega) h
        exact ⟨by omega, g2⟩

/-! ### Transposition -/

theorem transposeRow_spec {ds : List (List Value)} {dim j m : Nat}
    (ht : ∀ i j, i < dim → j < m → ∃ v, cell ds i j = some v) (hj : j < m)
    (todo i : Nat) (out : List Value) (hi : i + todo = dim) (hlen : (j + 1) * dim ≤ out.length) :
    ∃ out', transposeRow ds dim j todo i out = .ok out' ∧ out'.length = out.length ∧
      (∀ q, q < j * dim + i → out'[q]? = out[q]?) ∧
      (∀ i', i ≤ i' → i' < dim → out'[j * dim + i']? = cell ds i' j) := by
  induction todo generalizing i out with
  | zero =>
    refine ⟨out, rfl, rfl, fun _ _ => rfl, ?_⟩
    intro i' h1 h2; omega
  | succ todo ih =>
    obtain ⟨v, hv⟩ := ht i j (by omega) hj
    unfold transposeRow
    rw [hv]
    simp only
    have hlt : j * dim + i < out.length := by
      rw [Nat.add_mul] at hlen; omega
    rw [if_pos hlt]
    obtain ⟨out', h1, h2, h3, h4⟩ := ih (i + 1) (out.set (j * dim + i) v) (by omega) (by simpa using hlen)
    refine ⟨out', h1, by simpa using h2, ?_, ?_⟩
    · intro q hq
      rw [h3 q (by omega), List.getElem?_set_ne (by omega)]
    · intro i' hi' hd
      rcases Nat.lt_or_ge i i' with h | h
      · exact h4 i' h hd
      · have : i' = i := by omega
        subst this
        rw [h3 _ (by omega), List.getElem?_set_self hlt, hv]

theorem transposeRows_spec {ds : List (List Value)} {dim m : Nat}
    (ht : ∀ i j, i < dim → j < m → ∃ v, cell ds i j = some v)
    (todo j : Nat) (out : List Value) (hj : j + todo = m) (hlen : m * dim ≤ out.length)
    (hdone : ∀ j' i, j' < j → i < dim → out[j' * dim + i]? = cell ds i j') :
    ∃ out', transposeRows ds dim todo j out = .ok out' ∧ out'.length = out.length ∧
      ∀ j' i, j' < m → i < dim → out'[j' * dim + i]? = cell ds i j' := by
  induction todo generalizing j out with
  | zero =>
    refine ⟨out, rfl, rfl, ?_⟩
    intro j' i h1 h2; exact hdone j' i (by omega) h2
  | succ todo ih =>
    unfold transposeRows
    obtain ⟨out', h1, h2, h3, h4⟩ := transposeRow_spec ht (j := j) (by omega) dim 0 out (by omega)
      (Nat.le_trans (Nat.mul_le_mul_right _ (by omega)) hlen)
    rw [h1, Out.bind_ok]
    obtain ⟨o, g1, g2, g3⟩ := ih (j + 1) out' (by omega) (by omega) (by
      intro j' i hj' hi
      rcases Nat.lt_or_ge j' j with h | h
      · rw [h3 _ (by have := row_lt h hi; omega)]; exact hdone j' i h hi
      · have : j' = j := by omega
        subst this
        exact h4 i (by omega) hi)
    exact ⟨o, g1, by omega, g3⟩

end CCS
