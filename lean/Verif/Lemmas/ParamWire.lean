import Verif.Lemmas.Param

/-! Helper lemmas about the serialization of parameters. -/

namespace CCS

open Spec

/-- Bytes of the data common to all parameters. -/
def paramCommonBytes (p : Param) : Bytes :=
  lebBytes p.kind.code ++ (strBytes p.name ++ (datumBytes p.default ++ intervalBytes p.interval.raw))

/-- Bytes of the data specific to the kind. -/
def paramRestBytes (p : Param) : Bytes :=
  match p.kind with
  | .numerical iv q => if iv.type = .float then leBytes 8 q.toNat else lebBytes (zigzag q)
  | .categorical _ vals => lebBytes (BitVec.ofNat 64 vals.length) ++ vals.flatMap datumBytes
  | .string => []

/-- Bytes of a parameter. -/
def paramBytes (p : Param) (handle : BitVec 64) (ud : Bytes) : Bytes :=
  objBytes parameterType handle ++ (paramCommonBytes p ++ (paramRestBytes p ++ blobBytes ud))

/-- Every string of the parameter is a C string. -/
structure ParamWritable (p : Param) : Prop where
  name : 0#8 ∉ p.name ∧ p.name.length + 1 < 2 ^ 64
  default : p.default.Writable
  values : ∀ k vals, p.kind = .categorical k vals → ∀ v ∈ vals, v.Writable

theorem writes_param (little : Bool) (p : Param) (hp : ParamWritable p) (h : BitVec 64) (ud : Bytes) :
    WritesBytes (serParam little p h ud) (paramBytes p h ud) := by
  unfold serParam paramBytes serParamCommon paramCommonBytes
  refine writes_seq (writes_obj _ _) (writes_seq (writes_seq (writes_enum _)
    (writes_seq (writes_string _) (writes_seq (writes_datum _ _ hp.default) (writes_interval _ _))))
    (writes_seq ?_ (writes_userData _)))
  unfold serParamRest paramRestBytes
  cases hk : p.kind with
  | numerical iv q =>
    simp only
    split
    · exact writes_u64 _ _
    · exact writes_int _
  | categorical k vals =>
    exact writes_seq (writes_size _) (writes_all _ fun v hv => writes_datum _ _ (hp.values k vals hk v hv))
  | string => exact writes_nop

theorem length_datums (vals : List Value) (h : ∀ v ∈ vals, v.Writable) :
    szDatums vals = .ok (vals.flatMap datumBytes).length := by
  induction vals with
  | nil => rfl
  | cons v vs ih =>
    unfold szDatums
    rw [length_datum v (h v (by simp)), ih fun w hw => h w (by simp [hw])]
    simp

theorem length_param (p : Param) (hp : ParamWritable p) (h : BitVec 64) (ud : Bytes) :
    szParam p h ud = .ok (paramBytes p h ud).length := by
  have hrest : szParamRest p = .ok (paramRestBytes p).length := by
    unfold szParamRest paramRestBytes
    cases hk : p.kind with
    | numerical iv q =>
      simp only
      split
      · simp [length_leBytes, szU64Fixed]
      · simp [length_leb, szInt, szSigned]
    | categorical k vals =>
      simp only
      rw [length_datums vals (hp.values k vals hk)]
      simp [length_size]
    | string => rfl
  unfold szParam szParamCommon
  rw [length_datum _ hp.default, hrest]
  simp [paramBytes, paramCommonBytes, length_obj, length_leb, length_string, length_interval,
    length_userData, szEnum]
  omega

theorem decodes_paramCommon (little : Bool) (p : Param) (hp : ParamWritable p) :
    Decodes (deParamCommon little) (paramCommonBytes p)
      (p.kind.code, p.name, readBack p.default, p.interval.raw) :=
  decodes_bind (decodes_enum _) (decodes_bind (decodes_string hp.name.1 hp.name.2)
    (decodes_bind (decodes_datum _ _ hp.default) (decodes_bind_pure (decodes_interval _ _) rfl)))

theorem decodes_times' {r : Rd β} {g : α → Bytes} {f : α → β} (xs : List α)
    (h : ∀ x ∈ xs, Decodes r (g x) (f x)) :
    Decodes (Rd.times r xs.length) (xs.flatMap g) (xs.map f) := by
  induction xs with
  | nil => exact decodes_pure _
  | cons x xs ih =>
    rw [List.length_cons, Rd.times, List.flatMap_cons]
    exact decodes_bind (h x (by simp))
      (decodes_bind_pure (ih fun y hy => h y (by simp [hy])) rfl)

theorem lift_ok_eq (x : α) : (Rd.lift (.ok x) : Rd α) = pure x := rfl

/-- Reading the type does not consume it. -/
theorem reads_peek {r : Rd α} {f : α → Rd β} {b₁ b₂ : Bytes} {x : α} {y : β}
    (h₁ : ReadsBack r b₁ x) (h₂ : ReadsBack (f x) (b₁ ++ b₂) y) :
    ReadsBack (Rd.peek r >>= f) (b₁ ++ b₂) y := by
  intro tail
  rw [Rd.bind_eq]
  have := h₁ (b₂ ++ tail)
  unfold Rd.peek
  rw [List.append_assoc, this]
  have := h₂ tail
  rw [List.append_assoc] at this
  exact this

/-- The rest of a parameter after its own body. -/
theorem reads_param {ops : FloatOps} {jen : Bytes → BitVec 32} {little : Bool} {p p' : Param}
    {handle : BitVec 64} {ud : Bytes} (hud : ud.length < 2 ^ 64)
    (hb : ReadsBack (deParamBody ops jen little p.kind.code)
      (paramCommonBytes p ++ paramRestBytes p) p') :
    ReadsBack (deParam ops jen little) (paramBytes p handle ud) (handle, p', ud) := by
  unfold deParam paramBytes
  refine reads_bind (decodes_obj _ _).1 ?_
  have hr : refute (parameterType ≠ parameterType) Err.invalidType = .ok () := by simp [refute]
  have e : paramCommonBytes p ++ (paramRestBytes p ++ blobBytes ud) =
    [] ++ (lebBytes p.kind.code ++ ((strBytes p.name ++ (datumBytes p.default ++
      intervalBytes p.interval.raw)) ++ (paramRestBytes p ++ blobBytes ud))) := by
    simp [paramCommonBytes]
  rw [e]
  refine reads_bind (x := ()) ?_ (reads_peek (decodes_enum p.kind.code).1 ?_)
  · rw [hr]; exact (decodes_lift ()).1
  · have e2 : lebBytes p.kind.code ++ ((strBytes p.name ++ (datumBytes p.default ++
      intervalBytes p.interval.raw)) ++ (paramRestBytes p ++ blobBytes ud)) =
      (paramCommonBytes p ++ paramRestBytes p) ++ blobBytes ud := by simp [paramCommonBytes]
    rw [e2]
    exact reads_bind hb (reads_bind_pure (reads_userData hud) rfl)

theorem reads_string_param {ops : FloatOps} {jen : Bytes → BitVec 32} {little : Bool} {p : Param}
    (hp : ParamWritable p) (hk : p.kind = .string) :
    ReadsBack (deParamBody ops jen little p.kind.code) (paramCommonBytes p ++ paramRestBytes p)
      (createString p.name) := by
  have e : paramRestBytes p = [] := by simp [paramRestBytes, hk]
  have e2 : deParamBody ops jen little p.kind.code = deStringParam little := by
    rw [hk]; rfl
  rw [e, e2, List.append_nil]
  exact reads_bind_pure (decodes_paramCommon little p hp).1 rfl

theorem reads_quantization (little : Bool) (iv : Interval) (q : BitVec 64) :
    ReadsBack (deQuantization little iv.raw)
      (if iv.type = .float then leBytes 8 q.toNat else lebBytes (zigzag q)) q := by
  unfold deQuantization Interval.raw
  cases iv.type with
  | int => exact (decodes_int q).1
  | float => exact (decodes_u64 little q).1

theorem reads_numerical_param {ops : FloatOps} {jen : Bytes → BitVec 32} {little : Bool} {name : Bytes}
    {t : NumType} {l u q d : BitVec 64} {p : Param}
    (h : createNumerical ops name t l u q d = .ok p) (hp : ParamWritable p) :
    ReadsBack (deParamBody ops jen little p.kind.code) (paramCommonBytes p ++ paramRestBytes p) p := by
  have hp' := createNumerical_ok h
  have e2 : deParamBody ops jen little p.kind.code = deNumerical ops little := by
    rw [hp']; rfl
  rw [e2]
  refine reads_bind (decodes_paramCommon little p hp).1 ?_
  have : paramRestBytes p = paramRestBytes p ++ [] := by simp
  rw [this]
  refine reads_bind (x := q) ?_ ?_
  · rw [hp']
    exact reads_quantization little ⟨t, l, u, 1#32, 0#32⟩ q
  · have : rebuildNumerical ops p.name (readBack p.default) p.interval.raw q = .ok p := by
      rw [← h]
      unfold rebuildNumerical
      rw [hp']
      simp only [Param.interval, Interval.raw]
      cases t <;> simp [NumType.code, readBack, Value.word, numValue]
    simp only
    rw [this]
    exact (decodes_lift p).1

/-! ### Categorical -/

theorem publicCmp_self (little : Bool) (v : Value) : publicDatumCmp little v v = .eq := by
  unfold publicDatumCmp
  rw [if_neg (by omega), if_neg (by omega)]
  cases v with
  | str s => cases s <;> simp [strOptCmp, (lexCmp_eq_iff _ _).2]
  | int x => simp [intCmp]
  | float x => simp [floatCmp, F64.lt]
  | bool x => simp [memcmp8, (lexCmp_eq_iff _ _).2]
  | obj x => simp [memcmp8, (lexCmp_eq_iff _ _).2]
  | none => rfl
  | inactive => rfl

theorem publicCmp_eq {little : Bool} {a b : Value} (h : publicDatumCmp little a b = .eq) :
    a = b ∨ ∃ f g, a = .float f ∧ b = .float g ∧
      (num .float f = none ∨ num .float g = none ∨ num .float f = num .float g) := by
  by_cases hf : ∃ f, a = .float f
  · obtain ⟨f, rfl⟩ := hf
    by_cases hg : ∃ g, b = .float g
    · obtain ⟨g, rfl⟩ := hg
      right
      refine ⟨f, g, rfl, rfl, ?_⟩
      by_cases h1 : num .float f = none
      · exact .inl h1
      by_cases h2 : num .float g = none
      · exact .inr (.inl h2)
      right; right
      have n1 : NumberOrNot (.float f) := fun x hx => by cases hx; exact h1
      have n2 : NumberOrNot (.float g) := fun x hx => by cases hx; exact h2
      rw [public_triple little n1 n2, tripleCmp_eq_iff, triple_eq_iff little n1 n2] at h
      rcases h with h | ⟨f', g', h3, h4, h5⟩
      · cases h; rfl
      · cases h3; cases h4; exact h5
    · exfalso
      unfold publicDatumCmp at h
      cases b <;> simp_all [Value.tag]
  · left
    have n1 : NumberOrNot a := fun x hx => absurd ⟨x, hx⟩ hf
    have n2 : NumberOrNot b := by
      intro x hx
      exfalso
      subst hx
      unfold publicDatumCmp at h
      cases a <;> simp_all [Value.tag]
    rw [public_triple little n1 n2, tripleCmp_eq_iff, triple_eq_iff little n1 n2] at h
    rcases h with h | ⟨f, g, h3, -⟩
    · exact h
    · exact absurd ⟨f, h3⟩ hf

/-- The search for the default stops on the last value that compares equal. -/
theorem lastDefault_eq {little : Bool} {d : Value} {xs : List Datum} {i k : Nat} {r : Option Nat}
    {x : Datum} (hx : xs[k]? = some x) (he : publicDatumCmp little d x.v = .eq)
    (hl : ∀ j y, k < j → xs[j]? = some y → publicDatumCmp little d y.v ≠ .eq) :
    lastDefault little d i xs r = some (i + k) := by
  induction xs generalizing i k r with
  | nil => simp at hx
  | cons y ys ih =>
    unfold lastDefault
    cases k with
    | zero =>
      have hyx : y = x := by simpa using hx
      rw [hyx, if_pos he]
      have hnone : ∀ (ys : List Datum) (i : Nat) (r : Option Nat),
          (∀ y ∈ ys, publicDatumCmp little d y.v ≠ .eq) → lastDefault little d i ys r = r := by
        intro ys
        induction ys with
        | nil => intro i r _; rfl
        | cons z zs ihz =>
          intro i r hz
          unfold lastDefault
          rw [if_neg (hz z (by simp)), ihz _ _ fun w hw => hz w (by simp [hw])]
      rw [hnone ys]
      · rfl
      · intro z hz
        obtain ⟨j, hj, rfl⟩ := List.mem_iff_getElem.1 hz
        exact hl (j + 1) _ (by omega) (by simp [List.getElem?_eq_getElem hj])
    | succ k =>
      rw [ih (k := k) (by simpa using hx) (fun j z hj hz => hl (j + 1) z (by omega) (by simpa using hz))]
      congr 1; omega

theorem reads_categorical_param {ops : FloatOps} {jen : Bytes → BitVec 32} {little : Bool} {p p' : Param}
    {k : CatKind} {vals : List Value} (hp : ParamWritable p) (hk : p.kind = .categorical k vals)
    (hl : vals.length < 2 ^ 60)
    (h : rebuildCategorical jen little p.kind.code p.name (readBack p.default) (vals.map readBack) =
      .ok p') :
    ReadsBack (deParamBody ops jen little p.kind.code) (paramCommonBytes p ++ paramRestBytes p) p' := by
  have e2 : deParamBody ops jen little p.kind.code = deCategorical jen little := by
    rw [hk]; cases k <;> rfl
  have e : paramRestBytes p = lebBytes (BitVec.ofNat 64 vals.length) ++ (vals.flatMap datumBytes ++ []) := by
    simp [paramRestBytes, hk]
  rw [e2, e]
  refine reads_bind (decodes_paramCommon little p hp).1 (reads_bind (decodes_size (by omega)).1 ?_)
  rw [fill_room _ _ (by omega)]
  refine (reads_bind (decodes_times' vals fun v hv => decodes_datum little v (hp.values k vals hk v hv)).1 ?_)
  simp only
  rw [h]
  exact (decodes_lift p').1

/-- Rebuilding from what was read: the same values, and as default the listed value at place `i`. -/
theorem rebuild_values {jen : Bytes → BitVec 32} {little : Bool} {k : CatKind} {name : Bytes} {d : Value}
    {vals : List Value} {i : Nat} {v : Value}
    (hb : ∀ v ∈ vals, (readBack v).v = v) (hd : (readBack d).v = d)
    (hi : vals[i]? = some v) (he : publicDatumCmp little d v = .eq)
    (hlast : ∀ j w, i < j → vals[j]? = some w → publicDatumCmp little d w ≠ .eq)
    (hn : vals.Nodup) (hlen : vals.length ≤ 2 ^ 63 - 1) (hL : ∀ v ∈ vals, Listable k v) :
    rebuildCategorical jen little (ParamKind.categorical k vals).code name (readBack d)
      (vals.map readBack) = .ok ⟨name, v, .categorical k vals⟩ := by
  have hv : (readBack v).v = v := hb v (List.mem_of_getElem? hi)
  have hmap : (vals.map readBack).map Datum.v = vals := by
    rw [List.map_map]
    have := List.map_congr_left (l := vals) (f := Datum.v ∘ readBack) (g := id) fun w hw => hb w hw
    rw [this, List.map_id]
  have hld : lastDefault little (readBack d).v 0 (vals.map readBack) none = some i := by
    rw [lastDefault_eq (k := i) (x := readBack v) (by simp [hi]) (by rw [hd, hv]; exact he)]
    · simp
    · intro j y hj hy
      rw [List.getElem?_map] at hy
      cases hw : vals[j]? with
      | none => rw [hw] at hy; cases hy
      | some w =>
        rw [hw] at hy
        have := Option.some.inj hy
        rw [← this, hd, hb w (List.mem_of_getElem? hw)]
        exact hlast j w hj hw
  have hcc := createCategorical_good (jen := jen) (little := little) (kind := k) (name := name)
    (ds := vals.map readBack) (i := i) (d := readBack v) (by simp [hi]) (by simpa using hlen)
    (by rw [hmap]; exact hn) (by rw [hmap]; exact hL)
  rw [hmap, hv] at hcc
  unfold rebuildCategorical
  rw [hld]
  cases k <;> exact hcc

end CCS
