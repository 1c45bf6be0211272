import Verif.Lemmas.Datum

/-! # C21–C23: comparing and hashing datums

`Spec.TotalOrder` is in `Verif/Spec/Order.lean`; `Spec.num` (the number denoted by a bit pattern,
`none` for NaN) in `Verif/Spec/Num.lean`.  `little` is the endianness of the host. -/

namespace CCS.Props

open CCS Spec

/-- **C21** The comparison used by maps, sets and bindings is a total order whose equality is sameness
of kind and content, on every host; flags are ignored. -/
theorem C21_datum_identity_total_order (little : Bool) :
    TotalOrder Datum (fun a b => datumCmp little a.v b.v) (fun a b => a.v = b.v) :=
  ⟨fun a b => datumCmp_eq_iff little a.v b.v, fun a b => (datumCmp_total little).swap a.v b.v,
   fun a b c => (datumCmp_total little).trans a.v b.v c.v,
   fun a b c => (datumCmp_total little).trans_lt a.v b.v c.v⟩

/-- **C21** Reflexivity. -/
theorem C21_reflexive (little : Bool) (a : Value) : datumCmp little a a = .eq :=
  (datumCmp_eq_iff little a a).2 rfl

example : datumCmp true (.int 1#64) (.float 1#64) = .lt := by decide
example : datumCmp true (.str (some [65#8])) (.str (some [65#8, 66#8])) = .lt := by decide
example : datumCmp true (.int 256#64) (.int 1#64) = .lt ∧
    datumCmp false (.int 256#64) (.int 1#64) = .gt := by decide

/-- **C22** Equal datums have equal hashes, whatever the byte hash function. -/
theorem C22_equal_hash_equal (jen : Bytes → BitVec 32) (little : Bool) (a b : Datum)
    (h : datumCmp little a.v b.v = .eq) : hashDatum jen little a.v = hashDatum jen little b.v := by
  rw [(datumCmp_eq_iff little a.v b.v).1 h]

example : datumCmp true (Datum.mk (.str (some [65#8])) true true false).v
    (Datum.mk (.str (some [65#8])) false false false).v = .eq := by decide

/-- The datum holds a number, or is not a float: `ccs_datum_cmp` can order it. -/
def NotNaN (v : Value) : Prop := ∀ f, v = .float f → num .float f ≠ none

/-- Same kind and content, floats being compared as numbers (so −0 is 0). -/
def SameNumber (a b : Value) : Prop :=
  a = b ∨ ∃ f g, a = .float f ∧ b = .float g ∧ num .float f = num .float g

/-- **C23** fails for NaN: it compares equal to both 1.0 and 2.0, which differ. -/
theorem C23_nan_breaks_order (little : Bool) :
    ∃ a b c : Value, publicDatumCmp little a b = .eq ∧ publicDatumCmp little b c = .eq ∧
      publicDatumCmp little a c = .lt := by
  refine ⟨.float 0x3ff0000000000000#64, .float 0x7ff8000000000000#64, .float 0x4000000000000000#64, ?_⟩
  cases little <;> decide

/-- **C23** (partial) On datums that are not NaN the public comparison is a total order, whose
equality is sameness of kind and content with floats compared as numbers.
Missing for the full claim: NaN, for which it is false (above). -/
theorem C23_public_total_order_partial (little : Bool) :
    TotalOrder {v : Value // NotNaN v} (fun a b => publicDatumCmp little a.1 b.1)
      (fun a b => SameNumber a.1 b.1) := by
  apply totalOrder_of_lt
  · rintro ⟨a, ha⟩ ⟨b, hb⟩
    simp only
    rw [public_triple little ha hb, tripleCmp_eq_iff]
    exact triple_eq_iff little ha hb
  · rintro ⟨a, ha⟩ ⟨b, hb⟩
    simp only
    rw [public_triple little ha hb, public_triple little hb ha]
    exact tripleCmp_swap _ _
  · rintro ⟨a, ha⟩ ⟨b, hb⟩ ⟨c, hc⟩
    simp only
    rw [public_triple little ha hb, public_triple little hb hc, public_triple little ha hc]
    exact tripleCmp_lt_trans _ _ _
  · rintro ⟨a, ha⟩ ⟨b, hb⟩ ⟨c, hc⟩ h
    simp only at *
    rw [public_triple little ha hc, public_triple little hb hc, (triple_eq_iff little ha hb).2 h]

/-- **C23** Numbers are ordered as numbers. -/
theorem C23_numbers_in_order (little : Bool) (x y : BitVec 64) (a b : Int) :
    (publicDatumCmp little (.int x) (.int y) = .lt ↔ x.toInt < y.toInt) ∧
    (num .float x = some a → num .float y = some b →
      (publicDatumCmp little (.float x) (.float y) = .lt ↔ a < b)) := by
  constructor
  · have e : publicDatumCmp little (.int x) (.int y) = intCmp x y := by
      unfold publicDatumCmp; rw [if_neg (by simp [Value.tag]), if_neg (by simp [Value.tag])]
    rw [e, intCmp]
    by_cases h : x.toInt < y.toInt
    · rw [if_pos h]; exact ⟨fun _ => h, fun _ => rfl⟩
    · rw [if_neg h]
      refine ⟨fun h' => ?_, fun h' => absurd h' h⟩
      split at h' <;> cases h'
  · intro hx hy
    have h := lt_iff .float x y
    have e0 : NumType.lt .float x y = F64.lt x y := rfl
    rw [e0] at h
    have e : publicDatumCmp little (.float x) (.float y) = floatCmp x y := by
      unfold publicDatumCmp; rw [if_neg (by simp [Value.tag]), if_neg (by simp [Value.tag])]
    rw [e, floatCmp]
    constructor
    · intro h'
      by_cases hlt : F64.lt x y = true
      · obtain ⟨a', b', ha', hb', hab⟩ := h.1 hlt
        have h1 : a' = a := Option.some.inj (ha'.symm.trans hx)
        have h2 : b' = b := Option.some.inj (hb'.symm.trans hy)
        rw [← h1, ← h2]; exact hab
      · rw [if_neg hlt] at h'
        split at h' <;> cases h'
    · intro hab
      rw [if_pos (h.2 ⟨a, b, hx, hy, hab⟩)]

example : NotNaN (.float 0x3ff0000000000000#64) := by
  intro f hf; cases hf; decide +kernel
example : publicDatumCmp true (.float 0#64) (.float 0x8000000000000000#64) = .eq := by decide

end CCS.Props
