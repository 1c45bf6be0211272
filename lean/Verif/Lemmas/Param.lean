import Verif.Spec.Param
import Verif.Lemmas.Datum
import Verif.Lemmas.Interval
import Verif.Lemmas.WireObj

/-! Helper lemmas about parameters. -/

namespace CCS

open Spec

section
variable {jen : Bytes → BitVec 32} {little : Bool}

theorem valueMatch_iff (v e : Value) : valueMatch jen little v e = true ↔ e = v := by
  unfold valueMatch
  rw [Bool.and_eq_true, decide_eq_true_iff, decide_eq_true_iff, datumCmp_eq_iff]
  exact ⟨fun h => h.2, fun h => ⟨by rw [h], h⟩⟩

theorem valueMatch_eq (v : Value) : valueMatch jen little v = fun e => decide (e = v) := by
  funext e
  rw [Bool.eq_iff_iff, valueMatch_iff, decide_eq_true_iff]

theorem valueFind_eq (vals : List Value) (v : Value) :
    valueFind jen little vals v = if v ∈ vals then some v else none := by
  unfold valueFind
  rw [valueMatch_eq]
  by_cases h : v ∈ vals
  · rw [if_pos h]
    cases hf : vals.find? (fun e => decide (e = v)) with
    | none =>
      rw [List.find?_eq_none] at hf
      exact absurd (by simp) (hf v h)
    | some a =>
      have := List.find?_some hf
      simp at this
      rw [this]
  · rw [if_neg h, List.find?_eq_none]
    intro x hx
    simp
    rintro rfl
    exact h hx

theorem valueFind_isSome (vals : List Value) (v : Value) :
    (valueFind jen little vals v).isSome = true ↔ v ∈ vals := by
  rw [valueFind_eq]
  by_cases h : v ∈ vals <;> simp [h]

theorem insertValues_ok {acc : List Value} {ds : List Datum} {vals : List Value}
    (hacc : acc.Nodup) (h : insertValues jen little acc ds = .ok vals) :
    vals = acc ++ ds.map Datum.v ∧ vals.Nodup := by
  induction ds generalizing acc with
  | nil =>
    have := Out.ok.inj h
    subst this
    simp [hacc]
  | cons d ds ih =>
    unfold insertValues at h
    by_cases hd : d.v ∈ acc
    · rw [if_pos ((valueFind_isSome acc d.v).2 hd)] at h
      cases h
    · rw [if_neg (fun c => hd ((valueFind_isSome acc d.v).1 c))] at h
      have := ih (by
        rw [List.nodup_append]
        refine ⟨hacc, by simp, ?_⟩
        intro a ha b hb
        simp at hb
        subst hb
        rintro rfl
        exact hd ha) h
      simpa using this

theorem insertValues_nodup {acc : List Value} {ds : List Datum}
    (h : (acc ++ ds.map Datum.v).Nodup) :
    insertValues jen little acc ds = .ok (acc ++ ds.map Datum.v) := by
  induction ds generalizing acc with
  | nil => simp [insertValues]
  | cons d ds ih =>
    have hd : d.v ∉ acc := by
      intro hd
      rw [List.nodup_append] at h
      exact h.2.2 _ hd d.v (by simp) rfl
    unfold insertValues
    rw [if_neg (fun c => hd ((valueFind_isSome acc d.v).1 c)), ih (by simpa using h)]
    simp

theorem insertValues_err {acc : List Value} {ds : List Datum} :
    insertValues jen little acc ds ≠ .ub ∧
      ∀ e, insertValues jen little acc ds = .err e → e = .invalidValue := by
  induction ds generalizing acc with
  | nil => simp [insertValues]
  | cons d ds ih =>
    unfold insertValues
    split
    · simp
    · exact ih

theorem valueRefused_iff (kind : CatKind) (v : Value) :
    valueRefused kind v = false ↔ Listable kind v := by
  cases kind <;> cases v <;> simp [valueRefused, Listable, Value.tag]
  all_goals rename_i s; cases s <;> simp

/-- What a created categorical parameter looks like. -/
theorem createCategorical_ok {kind : CatKind} {name : Bytes} {ds : List Datum} {i : Nat} {p : Param}
    (h : createCategorical jen little kind name ds i = .ok p) :
    ∃ d, ds[i]? = some d ∧ p = ⟨name, d.v, .categorical kind (ds.map Datum.v)⟩ ∧
      (ds.map Datum.v).Nodup ∧ ds.length ≤ 2 ^ 63 - 1 ∧ ∀ v ∈ ds.map Datum.v, Listable kind v := by
  unfold createCategorical at h
  split at h
  · cases h
  split at h
  · cases h
  split at h
  · cases h
  rename_i h1 h2 h3
  obtain ⟨vals, hv, h⟩ := bind_eq_ok h
  obtain ⟨rfl, hn⟩ := insertValues_ok (by simp) hv
  simp only [List.nil_append, List.getElem?_map] at *
  have hi : i < ds.length := by omega
  rw [List.getElem?_eq_getElem hi] at h ⊢
  refine ⟨_, rfl, (Out.ok.inj h).symm, hn, by omega, ?_⟩
  intro v hv
  obtain ⟨d, hd, rfl⟩ := List.mem_map.1 hv
  rw [← valueRefused_iff]
  have := mt List.any_eq_true.2 h3
  cases hr : valueRefused kind d.v with
  | false => rfl
  | true => exact absurd ⟨d, hd, hr⟩ this

theorem createCategorical_good {kind : CatKind} {name : Bytes} {ds : List Datum} {i : Nat} {d : Datum}
    (hi : ds[i]? = some d) (hl : ds.length ≤ 2 ^ 63 - 1) (hn : (ds.map Datum.v).Nodup)
    (hL : ∀ v ∈ ds.map Datum.v, Listable kind v) :
    createCategorical jen little kind name ds i =
      .ok ⟨name, d.v, .categorical kind (ds.map Datum.v)⟩ := by
  have hi' : i < ds.length := (List.getElem?_eq_some_iff.1 hi).1
  unfold createCategorical
  rw [if_neg (c := ds.length = 0 ∨ ds.length ≤ i) (by omega),
    if_neg (c := 2 ^ 63 - 1 < ds.length) (by omega), if_neg, insertValues_nodup (by simpa using hn)]
  · simp [hi]
  · rw [List.any_eq_true]
    rintro ⟨d, hd, hr⟩
    have := (valueRefused_iff kind d.v).2 (hL _ (List.mem_map.2 ⟨d, hd, rfl⟩))
    rw [this] at hr
    cases hr

theorem createCategorical_err (kind : CatKind) (name : Bytes) (ds : List Datum) (i : Nat) :
    createCategorical jen little kind name ds i = .err .invalidValue ∨
      ∃ p, createCategorical jen little kind name ds i = .ok p := by
  unfold createCategorical
  split
  · exact .inl rfl
  split
  · exact .inl rfl
  split
  · exact .inl rfl
  rename_i h1 h2 h3
  cases h : insertValues jen little [] ds with
  | ok vals =>
    obtain ⟨rfl, -⟩ := insertValues_ok (by simp) h
    right
    have hi : i < ds.length := by omega
    simp [List.getElem?_eq_getElem hi]
  | err e => left; rw [insertValues_err.2 e h]; rfl
  | ub => exact absurd h insertValues_err.1

/-- A number as a value. -/
def numValue : NumType → BitVec 64 → Value
  | .int, x => .int x
  | .float, x => .float x

theorem createNumerical_ok {ops : FloatOps} {name : Bytes} {t : NumType} {l u q d : BitVec 64}
    {p : Param} (h : createNumerical ops name t l u q d = .ok p) :
    p = ⟨name, numValue t d, .numerical ⟨t, l, u, 1#32, 0#32⟩ q⟩ := by
  unfold createNumerical at h
  cases t with
  | int =>
    obtain ⟨r, -, h⟩ := bind_eq_ok h
    cases r with
    | true => cases h
    | false => exact (Out.ok.inj h).symm
  | float =>
    simp only at h
    split at h
    · cases h
    · exact (Out.ok.inj h).symm

theorem checkValue_iff (p : Param) (v : Value) :
    checkValue jen little p v = true ↔ Legal p v := by
  unfold checkValue Legal
  cases p.kind with
  | categorical k vals => exact valueFind_isSome vals v
  | string => cases v <;> simp [Value.tag]
  | numerical iv q =>
    cases ht : iv.type <;> cases v <;> simp [include_iff, ht]

theorem validateValue_cases (p : Param) (d : Datum) :
    (Legal p d.v ∧ (validateValue jen little p d).1 = true ∧
      (validateValue jen little p d).2.v = d.v) ∨
    (¬ Legal p d.v ∧ validateValue jen little p d = (false, ⟨.inactive, false, false, false⟩)) := by
  rw [← checkValue_iff (jen := jen) (little := little)]
  unfold validateValue
  cases hk : p.kind with
  | numerical iv q =>
    cases hc : checkValue jen little p d.v <;> simp
  | categorical k vals =>
    simp only [checkValue, hk, valueFind_eq]
    by_cases h : d.v ∈ vals <;> simp [h]
  | string =>
    simp only [checkValue, hk]
    cases hv : d.v <;> simp [Value.tag]

end

/-! ## Sampling -/

theorem keep_legal {p : Param} {x : BitVec 64} {v : Value} (h : p.keep x = some v) : Legal p v := by
  unfold Param.keep at h
  unfold Legal
  cases hk : p.kind with
  | numerical iv q =>
    rw [hk] at h
    simp only at h
    split at h
    · rename_i hi
      rw [include_iff] at hi
      cases ht : iv.type <;> rw [ht] at h <;> simp at h <;> simp [← h, hi, ht]
    · cases h
  | categorical k vals =>
    rw [hk] at h
    simp only at h
    split at h
    · exact List.mem_of_getElem? h
    · cases h
  | string => rw [hk] at h; cases h

theorem convert_of_mem {p : Param} (hp : p.kind ≠ .string)
    (hlen : ∀ k vals, p.kind = .categorical k vals → vals.length ≤ 2 ^ 63 - 1) {x : BitVec 64}
    (hx : Mem p.interval x) : ∃ v, p.convert x = .ok v ∧ Legal p v := by
  unfold Param.convert Legal
  unfold Param.interval at hx
  cases hk : p.kind with
  | string => exact absurd hk hp
  | numerical iv q =>
    rw [hk] at hx
    cases ht : iv.type <;> simp_all
  | categorical k vals =>
    rw [hk] at hx
    have hl := hlen k vals hk
    obtain ⟨l, y, u, hl', hy, hu, h1, h2⟩ := hx
    simp only [num, Option.some.injEq] at hl' hy hu
    subst hl' hy hu
    have hl0 : (0#64).toInt = 0 := by decide
    have hlu : (BitVec.ofNat 64 vals.length).toInt = vals.length := by
      rw [BitVec.toInt_eq_toNat_cond, BitVec.toNat_ofNat]
      rw [if_pos] <;> omega
    rw [hl0] at h1
    rw [hlu] at h2
    simp only [ne_eq, not_true_eq_false, false_and, or_false] at h2
    have h0 : 0 ≤ x.toInt := by omega
    have hx' : (x.toNat : Int) = x.toInt := by
      rw [BitVec.toInt_eq_toNat_cond] at h0 ⊢
      split <;> have := x.isLt <;> split at h0 <;> omega
    simp only
    rw [if_neg (by omega), List.getElem?_eq_getElem (by omega)]
    exact ⟨_, rfl, List.getElem_mem _⟩

theorem convertAll_ok {p : Param} {xs : List (BitVec 64)}
    (h : ∀ x ∈ xs, ∃ v, p.convert x = .ok v ∧ Legal p v) :
    ∃ vs, convertAll p xs = .ok vs ∧ vs.length = xs.length ∧ ∀ v ∈ vs, Legal p v := by
  induction xs with
  | nil => exact ⟨[], rfl, rfl, by simp⟩
  | cons x xs ih =>
    obtain ⟨v, hv, hl⟩ := h x (by simp)
    obtain ⟨vs, hvs, hlen, hl'⟩ := ih (fun y hy => h y (by simp [hy]))
    refine ⟨v :: vs, by simp [convertAll, hv, hvs], by simp [hlen], ?_⟩
    intro w hw
    rcases List.mem_cons.1 hw with rfl | hw
    · exact hl
    · exact hl' w hw

theorem filterMap_legal {p : Param} {xs : List (BitVec 64)} {v : Value}
    (h : v ∈ xs.filterMap p.keep) : Legal p v := by
  obtain ⟨x, -, hx⟩ := List.mem_filterMap.1 h
  exact keep_legal hx

theorem retryLoop_ok {p : Param} {draw : Draws} {n fuel k coeff : Nat} {found vs : List Value}
    (hf : found.length ≤ n) (hl : ∀ v ∈ found, Legal p v)
    (h : retryLoop p draw n fuel k coeff found = .ok vs) :
    vs.length = n ∧ ∀ v ∈ vs, Legal p v := by
  induction fuel generalizing k coeff found with
  | zero =>
    unfold retryLoop at h
    split at h
    · have := Out.ok.inj h; subst this
      exact ⟨by omega, hl⟩
    · split at h <;> cases h
  | succ fuel ih =>
    unfold retryLoop at h
    split at h
    · have := Out.ok.inj h; subst this
      exact ⟨by omega, hl⟩
    · split at h
      · cases h
      · obtain ⟨ws, -, h⟩ := bind_eq_ok h
        refine ih ?_ ?_ h
        · rw [List.length_append, List.length_take]; omega
        · intro v hv
          rcases List.mem_append.1 hv with hv | hv
          · exact hl v hv
          · exact filterMap_legal (List.mem_of_mem_take hv)

/-- The loop's fuel is never exhausted: `coeff` reaches 64 first. -/
theorem retryLoop_bad {p : Param} {draw : Draws} {n fuel k coeff : Nat} {found : List Value}
    (hc : 32 < coeff * 2 ^ fuel) :
    (retryLoop p draw n fuel k coeff found = .ub → ∃ k m, draw k m = .ub) ∧
    (∀ e, retryLoop p draw n fuel k coeff found = .err e →
      e = .samplingUnsuccessful ∨ ∃ k m, draw k m = .err e) := by
  induction fuel generalizing k coeff found with
  | zero =>
    unfold retryLoop
    have : 32 < coeff := by simpa using hc
    simp only [this, if_true]
    split <;> simp_all
  | succ fuel ih =>
    unfold retryLoop
    split
    · simp
    · split
      · simp_all
      · cases hd : draw k ((n - found.length) * coeff) with
        | ub => simp; exact ⟨_, _, hd⟩
        | err e =>
          simp
          exact .inr ⟨_, _, hd⟩
        | ok ws =>
          simp only [Out.bind_ok]
          refine ih ?_
          rw [Nat.mul_assoc, ← Nat.pow_succ']
          exact hc

theorem retryLoop_congr {p : Param} {d₁ d₂ : Draws} {n fuel k coeff : Nat} {found : List Value}
    (hc : 32 < coeff * 2 ^ fuel) (hk : 2 ^ k = coeff) (hk0 : 1 ≤ k)
    (h : ∀ j m, j < 6 → m ≤ 32 * n → d₁ j m = d₂ j m) :
    retryLoop p d₁ n fuel k coeff found = retryLoop p d₂ n fuel k coeff found := by
  induction fuel generalizing k coeff found with
  | zero => unfold retryLoop; rfl
  | succ fuel ih =>
    have e1 : ∀ d, retryLoop p d n (fuel + 1) k coeff found =
      if n ≤ found.length then .ok found
      else if 32 < coeff then .err .samplingUnsuccessful
      else (d k ((n - found.length) * coeff) >>= fun vs =>
        retryLoop p d n fuel (k + 1) (coeff * 2)
          (found ++ (vs.filterMap p.keep).take (n - found.length))) := fun d => by
      rw [retryLoop]
    rw [e1, e1]
    split
    · rfl
    split
    · rfl
    rename_i hn hc'
    have hk5 : k < 6 := by
      rcases Nat.lt_or_ge k 6 with h | h
      · exact h
      · have := Nat.pow_le_pow_right (n := 2) (by omega) h
        omega
    rw [h k _ hk5 (by
      have : (n - found.length) * coeff ≤ n * 32 := Nat.mul_le_mul (by omega) (by omega)
      omega)]
    cases d₂ k ((n - found.length) * coeff) with
    | ok vs =>
      simp only [Out.bind_ok]
      refine ih ?_ ?_ (by omega)
      · rw [Nat.mul_assoc, ← Nat.pow_succ']
        exact hc
      · rw [Nat.pow_succ, hk]
    | err e => rfl
    | ub => rfl

/-! ## In-place expansion -/

theorem expandValue_spec (n : Nat) (keep : BitVec 64 → Bool) (raw : List (BitVec 64))
    (hraw : raw.length = n) (todo i found : Nat) (mem : List (BitVec 64)) (hi : i + todo = n)
    (hm : mem.length = 2 * n) (hf : found = ((raw.take i).filter keep).length)
    (hdone : ∀ j, j < found → mem[2 * j]? = ((raw.take i).filter keep)[j]?)
    (hrest : ∀ j, i ≤ j → j < n → mem[n + j]? = raw[j]?) :
    (expandValue n keep todo i found mem).1 = (raw.filter keep).length ∧
    (expandValue n keep todo i found mem).2.length = 2 * n ∧
    ∀ j, j < (raw.filter keep).length →
      (expandValue n keep todo i found mem).2[2 * j]? = (raw.filter keep)[j]? := by
  induction todo generalizing i found mem with
  | zero =>
    have : i = n := by omega
    subst this
    rw [← hraw, List.take_length] at hf hdone
    simp only [expandValue]
    exact ⟨hf, hm, fun j hj => hdone j (by omega)⟩
  | succ todo ih =>
    have hin : i < n := by omega
    have hx : mem.getD (n + i) 0#64 = raw[i]'(by omega) := by
      rw [List.getD_eq_getElem?_getD, hrest i (Nat.le_refl _) hin,
        List.getElem?_eq_getElem (by omega)]
      rfl
    have htake : raw.take (i + 1) = raw.take i ++ [raw[i]'(by omega)] := by
      rw [List.take_append_getElem]
    have hfi : found ≤ i := by
      rw [hf]
      refine Nat.le_trans (List.length_filter_le _ _) ?_
      rw [List.length_take]; omega
    unfold expandValue
    simp only [hx]
    by_cases hk : keep (raw[i]'(by omega)) = true
    · rw [if_pos hk]
      refine ih _ _ _ (by omega) (by simp [hm]) ?_ ?_ ?_
      · rw [htake, List.filter_append, List.length_append, ← hf]; simp [hk]
      · intro j hj
        rw [htake, List.filter_append]
        by_cases hj' : j = found
        · subst hj'
          rw [List.getElem?_set_self (by omega), List.getElem?_append_right (by omega)]
          simp [hk, ← hf]
        · rw [List.getElem?_set_ne (by omega), List.getElem?_append_left (by omega),
            hdone j (by omega)]
      · intro j hj hjn
        rw [List.getElem?_set_ne (by omega)]
        exact hrest j (by omega) hjn
    · rw [if_neg hk]
      refine ih _ _ _ (by omega) hm ?_ ?_ (fun j hj hjn => hrest j (by omega) hjn)
      · rw [htake, List.filter_append, List.length_append, ← hf]; simp [hk]
      · intro j hj
        rw [htake, List.filter_append]
        have : List.filter keep [raw[i]'(by omega)] = [] := by simp [hk]
        rw [this, List.append_nil]
        exact hdone j hj

theorem setTypes_spec (tf : BitVec 64) (todo i : Nat) (mem : List (BitVec 64))
    (hm : 2 * (i + todo) ≤ mem.length) :
    (setTypes tf todo i mem).length = mem.length ∧
    (∀ j, (setTypes tf todo i mem)[2 * j]? = mem[2 * j]?) ∧
    (∀ j, i ≤ j → j < i + todo → (setTypes tf todo i mem)[2 * j + 1]? = some tf) ∧
    (∀ j, j < i → (setTypes tf todo i mem)[2 * j + 1]? = mem[2 * j + 1]?) := by
  induction todo generalizing i mem with
  | zero => simp [setTypes]; omega
  | succ todo ih =>
    obtain ⟨h1, h2, h3, h4⟩ := ih (i + 1) (mem.set (2 * i + 1) tf) (by simp; omega)
    unfold setTypes
    refine ⟨by rw [h1]; simp, fun j => ?_, fun j hj hj' => ?_, fun j hj => ?_⟩
    · rw [h2, List.getElem?_set_ne (by omega)]
    · by_cases hij : j = i
      · subst hij
        rw [h4 j (by omega), List.getElem?_set_self (by omega)]
      · exact h3 j (by omega) (by omega)
    · rw [h4 j (by omega), List.getElem?_set_ne (by omega)]

theorem expandDatum_spec (n : Nat) (lookup : BitVec 64 → Option (BitVec 64 × BitVec 64))
    (raw : List (BitVec 64)) (hraw : raw.length = n) (todo i found : Nat) (mem : List (BitVec 64))
    (hi : i + todo = n) (hm : mem.length = 2 * n)
    (hf : found = ((raw.take i).filterMap lookup).length)
    (hdone : ∀ j, j < found → mem[2 * j]? = (((raw.take i).filterMap lookup)[j]?).map (·.1) ∧
      mem[2 * j + 1]? = (((raw.take i).filterMap lookup)[j]?).map (·.2))
    (hrest : ∀ j, i ≤ j → j < n → mem[n + j]? = raw[j]?) :
    (expandDatum n lookup todo i found mem).1 = (raw.filterMap lookup).length ∧
    (expandDatum n lookup todo i found mem).2.length = 2 * n ∧
    ∀ j, j < (raw.filterMap lookup).length →
      (expandDatum n lookup todo i found mem).2[2 * j]? = ((raw.filterMap lookup)[j]?).map (·.1) ∧
      (expandDatum n lookup todo i found mem).2[2 * j + 1]? =
        ((raw.filterMap lookup)[j]?).map (·.2) := by
  induction todo generalizing i found mem with
  | zero =>
    have : i = n := by omega
    subst this
    rw [← hraw, List.take_length] at hf hdone
    simp only [expandDatum]
    exact ⟨hf, hm, fun j hj => hdone j (by omega)⟩
  | succ todo ih =>
    have hin : i < n := by omega
    have hx : mem.getD (n + i) 0#64 = raw[i]'(by omega) := by
      rw [List.getD_eq_getElem?_getD, hrest i (Nat.le_refl _) hin,
        List.getElem?_eq_getElem (by omega)]
      rfl
    have htake : raw.take (i + 1) = raw.take i ++ [raw[i]'(by omega)] := by
      rw [List.take_append_getElem]
    have hfi : found ≤ i := by
      rw [hf]
      refine Nat.le_trans (List.length_filterMap_le _ _) ?_
      rw [List.length_take]; omega
    unfold expandDatum
    rw [hx]
    cases hk : lookup (raw[i]'(by omega)) with
    | some p =>
      obtain ⟨v, tf⟩ := p
      simp only
      refine ih _ _ _ (by omega) (by simp [hm]) ?_ ?_ ?_
      · rw [htake, List.filterMap_append, List.length_append, ← hf]; simp [hk]
      · intro j hj
        rw [htake, List.filterMap_append]
        by_cases hj' : j = found
        · subst hj'
          rw [List.getElem?_set_ne (by omega), List.getElem?_set_self (by omega),
            List.getElem?_set_self (by simp; omega), List.getElem?_append_right (by omega)]
          simp [hk, ← hf]
        · rw [List.getElem?_set_ne (by omega), List.getElem?_set_ne (by omega),
            List.getElem?_set_ne (by omega), List.getElem?_set_ne (by omega),
            List.getElem?_append_left (by omega)]
          exact hdone j (by omega)
      · intro j hj hjn
        rw [List.getElem?_set_ne (by omega), List.getElem?_set_ne (by omega)]
        exact hrest j (by omega) hjn
    | none =>
      simp only
      refine ih _ _ _ (by omega) hm ?_ ?_ (fun j hj hjn => hrest j (by omega) hjn)
      · rw [htake, List.filterMap_append, List.length_append, ← hf]; simp [hk]
      · intro j hj
        rw [htake, List.filterMap_append]
        have : List.filterMap lookup [raw[i]'(by omega)] = [] := by simp [hk]
        rw [this, List.append_nil]
        exact hdone j hj

end CCS
