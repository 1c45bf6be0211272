import Verif.Model.Datum
import Verif.Spec.Order
import Verif.Lemmas.WireObj
import Verif.Lemmas.Num

/-! Helper lemmas about datum comparisons. -/

namespace CCS

open Spec

theorem lexCmp_eq_iff (a b : Bytes) : lexCmp a b = .eq ↔ a = b := by
  induction a generalizing b with
  | nil => cases b <;> simp [lexCmp]
  | cons x xs ih =>
    cases b with
    | nil => simp [lexCmp]
    | cons y ys =>
      simp only [lexCmp, List.cons.injEq]
      have hxy : x = y ↔ x.toNat = y.toNat := BitVec.toNat_inj.symm
      by_cases h1 : x.toNat < y.toNat
      · rw [if_pos h1]; simp; intro h; subst h; omega
      · rw [if_neg h1]
        by_cases h2 : y.toNat < x.toNat
        · rw [if_pos h2]; simp; intro h; subst h; omega
        · rw [if_neg h2, ih]
          have : x = y := hxy.2 (by omega)
          simp [this]

theorem lexCmp_swap (a b : Bytes) : lexCmp b a = (lexCmp a b).swap := by
  induction a generalizing b with
  | nil => cases b <;> simp [lexCmp]
  | cons x xs ih =>
    cases b with
    | nil => simp [lexCmp]
    | cons y ys =>
      simp only [lexCmp]
      by_cases h1 : x.toNat < y.toNat
      · have h2 : ¬ y.toNat < x.toNat := by omega
        simp [h1, h2]
      · by_cases h2 : y.toNat < x.toNat
        · simp [h1, h2]
        · simp [h1, h2, ih ys]

theorem lexCmp_lt_trans (a b c : Bytes) (h1 : lexCmp a b = .lt) (h2 : lexCmp b c = .lt) :
    lexCmp a c = .lt := by
  induction a generalizing b c with
  | nil =>
    cases b with
    | nil => simp [lexCmp] at h1
    | cons y ys =>
      cases c with
      | nil => simp [lexCmp] at h2
      | cons z zs => simp [lexCmp]
  | cons x xs ih =>
    cases b with
    | nil => simp [lexCmp] at h1
    | cons y ys =>
      cases c with
      | nil => simp [lexCmp] at h2
      | cons z zs =>
        simp only [lexCmp] at h1 h2 ⊢
        by_cases a1 : x.toNat < y.toNat
        · have : ¬ z.toNat < y.toNat := by
            intro hz
            rw [if_neg (by omega), if_pos hz] at h2
            cases h2
          rw [if_pos (by omega)]
        · rw [if_neg a1] at h1
          by_cases a2 : y.toNat < x.toNat
          · rw [if_pos a2] at h1; cases h1
          · rw [if_neg a2] at h1
            by_cases b1 : y.toNat < z.toNat
            · rw [if_pos (by omega)]
            · rw [if_neg b1] at h2
              by_cases b2 : z.toNat < y.toNat
              · rw [if_pos b2] at h2; cases h2
              · rw [if_neg b2] at h2
                rw [if_neg (by omega), if_neg (by omega)]
                exact ih ys zs h1 h2

theorem totalOrder_of_lt {α : Type} {cmp : α → α → Ordering} {same : α → α → Prop}
    (eq_iff : ∀ a b, cmp a b = .eq ↔ same a b) (swap : ∀ a b, cmp b a = (cmp a b).swap)
    (trans_lt : ∀ a b c, cmp a b = .lt → cmp b c = .lt → cmp a c = .lt)
    (congr : ∀ a b c, same a b → cmp a c = cmp b c) :
    TotalOrder α cmp same := by
  refine ⟨eq_iff, swap, ?_, trans_lt⟩
  intro a b c h1 h2
  cases hab : cmp a b with
  | gt => exact absurd hab h1
  | eq => rw [congr a b c ((eq_iff a b).1 hab)]; exact h2
  | lt =>
    cases hbc : cmp b c with
    | gt => exact absurd hbc h2
    | lt => rw [trans_lt a b c hab hbc]; simp
    | eq =>
      have : cmp c a = cmp b a := by
        have hcb : cmp c b = .eq := by rw [swap b c, hbc]; rfl
        exact congr c b a ((eq_iff c b).1 hcb)
      rw [swap c a, this, swap a b, hab]; simp

theorem lexCmp_total : TotalOrder Bytes lexCmp (· = ·) :=
  totalOrder_of_lt lexCmp_eq_iff lexCmp_swap lexCmp_lt_trans (fun a b c h => by rw [h])

theorem hostBytes_inj {little : Bool} {x y : BitVec 64}
    (h : hostBytes little 8 x = hostBytes little 8 y) : x = y := by
  unfold hostBytes at h
  cases little with
  | true => exact leBytes_inj (n := 8) (by decide) (by simpa using h)
  | false => exact leBytes_inj (n := 8) (by decide) (by simpa using h)

/-- Encoding of a value as bytes whose lexicographic order is `_datum_cmp`. -/
def encode (little : Bool) (v : Value) : Bytes :=
  BitVec.ofNat 8 v.tag ::
    match v with
    | .str (some s) => 1#8 :: s
    | .str none => []
    | .none => []
    | .inactive => []
    | .int i => hostBytes little 8 i
    | .float i => hostBytes little 8 i
    | .bool i => hostBytes little 8 i
    | .obj i => hostBytes little 8 i

theorem tag_lt (v : Value) : v.tag < 7 := by cases v <;> simp [Value.tag]

theorem encode_cmp (little : Bool) (a b : Value) :
    datumCmp little a b = lexCmp (encode little a) (encode little b) := by
  unfold datumCmp encode
  simp only [lexCmp, BitVec.toNat_ofNat]
  have ha : a.tag % 2 ^ 8 = a.tag := by have := tag_lt a; omega
  have hb : b.tag % 2 ^ 8 = b.tag := by have := tag_lt b; omega
  rw [ha, hb]
  by_cases h1 : a.tag < b.tag
  · simp [h1]
  · by_cases h2 : b.tag < a.tag
    · simp [h1, h2]
    · rw [if_neg h1, if_neg h1, if_neg h2, if_neg h2]
      cases a with
      | str s =>
        cases b with
        | str t => cases s <;> cases t <;> simp [strOptCmp, lexCmp]
        | _ => simp [Value.tag] at h1 h2
      | _ => cases b <;> first | rfl | (exfalso; simp [Value.tag] at h1 h2; done) | simp [memcmp8, lexCmp]

theorem encode_inj {little : Bool} {a b : Value} (h : encode little a = encode little b) : a = b := by
  unfold encode at h
  rw [List.cons.injEq] at h
  obtain ⟨h0, h⟩ := h
  have ht : a.tag = b.tag := by
    have := congrArg BitVec.toNat h0
    simp only [BitVec.toNat_ofNat] at this
    have := tag_lt a; have := tag_lt b; omega
  cases a with
  | str s =>
    cases b with
    | str t => cases s <;> cases t <;> simp_all
    | _ => simp [Value.tag] at ht
  | none => cases b <;> simp_all [Value.tag]
  | inactive => cases b <;> simp_all [Value.tag]
  | int i => cases b <;> simp_all [Value.tag]; exact hostBytes_inj h
  | float i => cases b <;> simp_all [Value.tag]; exact hostBytes_inj h
  | bool i => cases b <;> simp_all [Value.tag]; exact hostBytes_inj h
  | obj i => cases b <;> simp_all [Value.tag]; exact hostBytes_inj h

theorem datumCmp_eq_iff (little : Bool) (a b : Value) : datumCmp little a b = .eq ↔ a = b := by
  rw [encode_cmp, lexCmp_eq_iff]
  exact ⟨encode_inj, fun h => by rw [h]⟩

theorem datumCmp_total (little : Bool) : TotalOrder Value (datumCmp little) (· = ·) := by
  refine ⟨datumCmp_eq_iff little, ?_, ?_, ?_⟩
  · intro a b; rw [encode_cmp, encode_cmp]; exact lexCmp_total.swap _ _
  · intro a b c; rw [encode_cmp, encode_cmp, encode_cmp]; exact lexCmp_total.trans _ _ _
  · intro a b c; rw [encode_cmp, encode_cmp, encode_cmp]; exact lexCmp_total.trans_lt _ _ _

/-- The numbers compared by `ccs_datum_cmp`. -/
def rank : Value → Int
  | .int i => i.toInt
  | .float f => F64.key f
  | _ => 0

/-- The bytes compared by `ccs_datum_cmp`. -/
def rest (little : Bool) : Value → Bytes
  | .str (some s) => 1#8 :: s
  | .str none => []
  | .bool i => hostBytes little 8 i
  | .obj i => hostBytes little 8 i
  | _ => []

/-- Lexicographic comparison of (tag, rank, rest). -/
def tripleCmp (a b : Nat × Int × Bytes) : Ordering :=
  if a.1 < b.1 then .lt else if b.1 < a.1 then .gt
  else if a.2.1 < b.2.1 then .lt else if b.2.1 < a.2.1 then .gt
  else lexCmp a.2.2 b.2.2

theorem tripleCmp_swap (a b : Nat × Int × Bytes) : tripleCmp b a = (tripleCmp a b).swap := by
  unfold tripleCmp
  by_cases h1 : a.1 < b.1
  · have : ¬ b.1 < a.1 := by omega
    simp [h1, this]
  · by_cases h2 : b.1 < a.1
    · simp [h1, h2]
    · by_cases h3 : a.2.1 < b.2.1
      · have : ¬ b.2.1 < a.2.1 := by omega
        simp [h1, h2, h3, this]
      · by_cases h4 : b.2.1 < a.2.1
        · simp [h1, h2, h3, h4]
        · simp [h1, h2, h3, h4, lexCmp_swap a.2.2]

theorem tripleCmp_lt_iff (a b : Nat × Int × Bytes) : tripleCmp a b = .lt ↔
    a.1 < b.1 ∨ (a.1 = b.1 ∧ (a.2.1 < b.2.1 ∨ (a.2.1 = b.2.1 ∧ lexCmp a.2.2 b.2.2 = .lt))) := by
  unfold tripleCmp
  by_cases h1 : a.1 < b.1
  · simp [h1]
  · by_cases h2 : b.1 < a.1
    · simp [h1, h2]; omega
    · by_cases h3 : a.2.1 < b.2.1
      · simp [h1, h2, h3]; omega
      · by_cases h4 : b.2.1 < a.2.1
        · simp [h1, h2, h3, h4]; omega
        · have e1 : a.1 = b.1 := by omega
          have e2 : a.2.1 = b.2.1 := by omega
          simp [e1, e2]

theorem tripleCmp_eq_iff (a b : Nat × Int × Bytes) : tripleCmp a b = .eq ↔ a = b := by
  unfold tripleCmp
  constructor
  · intro h
    split at h; · cases h
    split at h; · cases h
    split at h; · cases h
    split at h; · cases h
    have := (lexCmp_eq_iff _ _).1 h
    exact Prod.ext (by omega) (Prod.ext (by omega) this)
  · rintro rfl
    simp [(lexCmp_eq_iff _ _).2 rfl]

theorem tripleCmp_lt_trans (a b c : Nat × Int × Bytes) (h1 : tripleCmp a b = .lt)
    (h2 : tripleCmp b c = .lt) : tripleCmp a c = .lt := by
  rw [tripleCmp_lt_iff] at *
  rcases h1 with h1 | ⟨e1, h1⟩
  · rcases h2 with h2 | ⟨e2, -⟩ <;> left <;> omega
  · rcases h2 with h2 | ⟨e2, h2⟩
    · left; omega
    · right
      refine ⟨by omega, ?_⟩
      rcases h1 with h1 | ⟨e3, h1⟩
      · rcases h2 with h2 | ⟨e4, -⟩ <;> left <;> omega
      · rcases h2 with h2 | ⟨e4, h2⟩
        · left; omega
        · exact Or.inr ⟨by omega, lexCmp_lt_trans _ _ _ h1 h2⟩

/-- No NaN. -/
def NumberOrNot (v : Value) : Prop := ∀ f, v = .float f → num .float f ≠ none

theorem public_triple (little : Bool) {a b : Value} (ha : NumberOrNot a) (hb : NumberOrNot b) :
    publicDatumCmp little a b =
      tripleCmp (a.tag, rank a, rest little a) (b.tag, rank b, rest little b) := by
  unfold publicDatumCmp tripleCmp
  by_cases h1 : a.tag < b.tag
  · simp [h1]
  · by_cases h2 : b.tag < a.tag
    · simp [h1, h2]
    · rw [if_neg h1, if_neg h1, if_neg h2, if_neg h2]
      cases a with
      | str s =>
        cases b with
        | str t => cases s <;> cases t <;> simp [strOptCmp, lexCmp, rank, rest]
        | _ => simp [Value.tag] at h1 h2
      | int x =>
        cases b with
        | int y => simp [rank, rest, intCmp, lexCmp]
        | _ => simp [Value.tag] at h1 h2
      | float x =>
        cases b with
        | float y =>
          have hx : F64.isNaN x = false := by
            have := ha x rfl
            rw [ne_eq, ← isNaN_iff] at this; simpa using this
          have hy : F64.isNaN y = false := by
            have := hb y rfl
            rw [ne_eq, ← isNaN_iff] at this; simpa using this
          simp [rank, rest, floatCmp, F64.lt, hx, hy, lexCmp]
        | _ => simp [Value.tag] at h1 h2
      | _ =>
        cases b <;> first
          | (exfalso; simp [Value.tag] at h1 h2; done)
          | simp [memcmp8, lexCmp, rank, rest]

theorem triple_eq_iff (little : Bool) {a b : Value} (ha : NumberOrNot a) (hb : NumberOrNot b) :
    (a.tag, rank a, rest little a) = (b.tag, rank b, rest little b) ↔
      (a = b ∨ ∃ f g, a = .float f ∧ b = .float g ∧ num .float f = num .float g) := by
  constructor
  · intro h
    simp only [Prod.mk.injEq] at h
    obtain ⟨h0, h1, h2⟩ := h
    cases a with
    | float f =>
      cases b with
      | float g =>
        right
        obtain ⟨x, hx⟩ := Option.ne_none_iff_exists'.1 (ha f rfl)
        obtain ⟨y, hy⟩ := Option.ne_none_iff_exists'.1 (hb g rfl)
        refine ⟨f, g, rfl, rfl, ?_⟩
        rw [hx, hy, (key_eq_iff hx hy).1 h1]
      | _ => simp [Value.tag] at h0
    | str s =>
      left
      cases b with
      | str t => cases s <;> cases t <;> simp_all [rest]
      | _ => simp [Value.tag] at h0
    | none => left; cases b <;> simp_all [Value.tag]
    | inactive => left; cases b <;> simp_all [Value.tag]
    | int i => left; cases b <;> simp_all [Value.tag, rank]; exact BitVec.toInt_inj.1 h1
    | bool i => left; cases b <;> simp_all [Value.tag, rest]; exact hostBytes_inj h2
    | obj i => left; cases b <;> simp_all [Value.tag, rest]; exact hostBytes_inj h2
  · rintro (rfl | ⟨f, g, rfl, rfl, h⟩)
    · rfl
    · obtain ⟨x, hx⟩ := Option.ne_none_iff_exists'.1 (ha f rfl)
      have hy : num .float g = some x := by rw [← h, hx]
      simp [Value.tag, rank, rest, (key_eq_iff hx hy).2 rfl]

end CCS
