import Verif.Spec.BoundDraws
import Verif.Props.Distribution
import Verif.Props.Interval

/-! # C144: distributions used from Python and Ruby -/

namespace CCS.Props

open CCS Spec CCS.Distribution

variable {σ : Type}

theorem number_read (t : NumType) (v : BitVec 64) : Number t v (Num.read t v) := by cases t <;> exact rfl

theorem readRow_get (mem : Nat → BitVec 64) (ts : List NumType) : ∀ a, (readRow mem ts a).length = ts.length ∧
    ∀ (i : Nat) t, ts[i]? = some t → (readRow mem ts a)[i]? = some (Num.read t (mem (a + i))) := by
  induction ts with
  | nil => intro a; exact ⟨rfl, by simp⟩
  | cons t ts ih =>
    intro a
    obtain ⟨h1, h2⟩ := ih (a + 1)
    refine ⟨by simp [readRow, h1], fun i t' h => ?_⟩
    cases i with
    | zero => simp only [List.getElem?_cons_zero, Option.some.injEq] at h; subst h; rfl
    | succ i =>
      simp only [List.getElem?_cons_succ] at h
      have := h2 i t' h
      simp only [readRow, List.getElem?_cons_succ, this]
      congr 3
      omega

theorem readRows_get (dim : Nat) (types : List NumType) (mem : Nat → BitVec 64) (n : Nat) : ∀ j,
    (readRows dim types mem n j).length = n ∧
    ∀ i, i < n → (readRows dim types mem n j)[i]? = some (.many (readRow mem types ((j + i) * dim))) := by
  induction n with
  | zero => intro j; exact ⟨rfl, fun i h => absurd h (by omega)⟩
  | succ n ih =>
    intro j
    obtain ⟨h1, h2⟩ := ih (j + 1)
    refine ⟨by simp [readRows, h1], fun i h => ?_⟩
    cases i with
    | zero => rfl
    | succ i =>
      simp only [readRows, List.getElem?_cons_succ, h2 i (by omega)]
      congr 4
      omega

theorem readColumn_get (t : NumType) (mem : Nat → BitVec 64) (n : Nat) : ∀ j, (readColumn t mem n j).length = n ∧
    ∀ i, i < n → (readColumn t mem n j)[i]? = some (.one (Num.read t (mem (j + i)))) := by
  induction n with
  | zero => intro j; exact ⟨rfl, fun i h => absurd h (by omega)⟩
  | succ n ih =>
    intro j
    obtain ⟨h1, h2⟩ := ih (j + 1)
    refine ⟨by simp [readColumn, h1], fun i h => ?_⟩
    cases i with
    | zero => rfl
    | succ i =>
      simp only [readColumn, List.getElem?_cons_succ, h2 i (by omega)]
      congr 4
      omega

/-- A row read from memory shows the sample that is there. -/
theorem shown_row {types : List NumType} {row : List (BitVec 64)} {mem : Nat → BitVec 64} {a : Nat} (h1 : types.length ≠ 1)
    (hl : row.length = types.length) (hm : ∀ (c : Nat) v, row[c]? = some v → mem (a + c) = v) :
    Shown types row (.many (readRow mem types a)) := by
  obtain ⟨h2, h3⟩ := readRow_get mem types a
  refine .many h1 hl h2 fun i t v x ht hv hx => ?_
  have := (h3 i t ht).symm.trans hx
  rw [hm i v hv] at this
  exact Option.some.inj this ▸ number_read t v

theorem made_types {M : Machine σ} {d : Sampler σ} (h : Made M d) : d.types.length = d.dim := by
  obtain ⟨h1, h2⟩ := made_shape h
  rw [← h2, List.length_map, h1]

theorem one_type {M : Machine σ} {d : Sampler σ} (h : Made M d) (h1 : d.dim = 1) : ∃ t, d.types = [t] := by
  have := made_types h
  match hts : d.types with
  | [t] => exact ⟨t, rfl⟩
  | [] => rw [hts] at this; simp at this; omega
  | _ :: _ :: _ => rw [hts] at this; simp at this; omega

/-- A call that fills an array, and what is made of the array, report what the call makes. -/
theorem reports_of_fills {α : Type} {call : Act σ} {n dim : Nat} {addr : Nat → Nat → Nat} {g : σ} {out : Option (Out (Rows × σ))}
    (hf : Fills call n dim addr g out) {f : (Nat → BitVec 64) → Out α} {shown : Rows → α → Prop}
    (hx : ∀ rows mem, rows.length = n → (∀ row ∈ rows, row.length = dim) → (∀ r c v, rows.at r c = some v → mem (addr r c) = v) →
      ∃ x, f mem = .ok x ∧ shown rows x) :
    Reports shown out (shownOf f (call (freshStore g))) := by
  unfold Fills at hf
  unfold Reports
  match out with
  | none => rw [show call (freshStore g) = _ from hf _]; rfl
  | some .ub => rw [show call (freshStore g) = _ from hf _]; rfl
  | some (.err e) => rw [show call (freshStore g) = _ from hf _]; rfl
  | some (.ok (rows, g')) =>
    obtain ⟨h1, h2, h3⟩ := hf
    obtain ⟨m', h4, h5, -⟩ := h3 fun _ => 0#64
    obtain ⟨x, h6, h7⟩ := hx rows m' h1 h2 h5
    refine ⟨x, ?_, h7⟩
    rw [show call (freshStore g) = _ from h4]
    show some (f m' >>= fun x => .ok (x, g')) = _
    rw [h6]
    rfl

theorem at_row {rows : Rows} {i : Nat} {row : List (BitVec 64)} (h : rows[i]? = some row) {c : Nat} {v : BitVec 64}
    (hv : row[c]? = some v) : rows.at i c = some v := by
  unfold Rows.at
  rw [h]
  exact hv

/-- **C144** `sample` of Python returns the sample that the library makes: a number for a distribution of one dimension, otherwise
a list of as many numbers as dimensions, each an integer or a float by the data type of its dimension. -/
theorem C144_python_sample {M : Machine σ} {d : Sampler σ} (hd : Made M d) {g : σ} {out : Option (Out (Rows × σ))}
    (hlay : Layouts d 1 g out) : Reports (ShownOne d.types) out (Py.sample d g) := by
  refine reports_of_fills (hlay.single rfl 0) fun rows mem h1 h2 h3 => ?_
  match rows, h1 with
  | [row], _ =>
    have hl := h2 row (by simp)
    by_cases hdim : d.dim = 1
    · obtain ⟨t, ht⟩ := one_type hd hdim
      rw [hdim] at hl
      match row, hl with
      | [v], _ =>
        refine ⟨.one (Num.read t (mem 0)), by simp [hdim, ht], [v], rfl, ?_⟩
        rw [ht, h3 0 0 v rfl]
        exact .one (number_read t v)
    · have hts := made_types hd
      exact ⟨_, if_neg hdim, row, rfl, shown_row (by omega) (by omega) fun c v hv => h3 0 c v (at_row rfl hv)⟩

/-- **C144** `sample` of Ruby does the same. -/
theorem C144_ruby_sample {M : Machine σ} {d : Sampler σ} (hd : Made M d) {g : σ} {out : Option (Out (Rows × σ))}
    (hlay : Layouts d 1 g out) : Reports (ShownOne d.types) out (Rb.sample d g) := by
  refine reports_of_fills (hlay.single rfl 0) fun rows mem h1 h2 h3 => ?_
  match rows, h1 with
  | [row], _ =>
    have hl := h2 row (by simp)
    by_cases hdim : d.dim = 1
    · obtain ⟨t, ht⟩ := one_type hd hdim
      rw [hdim] at hl
      match row, hl with
      | [v], _ =>
        refine ⟨.one (Num.read t (mem 0)), ?_, [v], rfl, ?_⟩
        · rw [if_pos hdim, ht]; cases t <;> rfl
        · rw [ht, h3 0 0 v rfl]
          exact .one (number_read t v)
    · have hts := made_types hd
      exact ⟨_, if_neg hdim, row, rfl, shown_row (by omega) (by omega) fun c v hv => h3 0 c v (at_row rfl hv)⟩

/-- No sample asked for: nothing is drawn. -/
theorem nothing_drawn {d : Sampler σ} {g : σ} {out : Option (Out (Rows × σ))} (hlay : Layouts d 0 g out) :
    out = some (.ok ([], g)) := by
  have hf := hlay.contiguous 0
  unfold Fills at hf
  have hc : ∀ m, d.callSamples 0 (some 0) ⟨g, m⟩ = some (.ok ⟨g, m⟩) := fun m => rfl
  match out with
  | none => exact absurd ((hc fun _ => 0#64).symm.trans (hf _)) (by simp)
  | some .ub => exact absurd ((hc fun _ => 0#64).symm.trans (hf _)) (by simp)
  | some (.err e) => exact absurd ((hc fun _ => 0#64).symm.trans (hf _)) (by simp)
  | some (.ok (rows, g')) =>
    obtain ⟨h1, -, h3⟩ := hf
    obtain ⟨m', h4, -⟩ := h3 fun _ => 0#64
    have := (hc fun _ => 0#64).symm.trans h4
    simp only [Option.some.injEq, Out.ok.injEq, Store.mk.injEq] at this
    rw [List.length_eq_zero_iff.mp h1, this.1]

/-- The numbers of a column. -/
theorem shown_column {t : NumType} {rows : Rows} {n : Nat} {mem : Nat → BitVec 64} (h1 : rows.length = n)
    (h2 : ∀ row ∈ rows, row.length = 1) (h3 : ∀ r c v, rows.at r c = some v → mem (0 + r * 1 + c) = v) :
    ShownAll [t] rows (readColumn t mem n 0) := by
  obtain ⟨h4, h5⟩ := readColumn_get t mem n 0
  refine ⟨h4.trans h1.symm, fun i row x hr hx => ?_⟩
  have hi : i < n := by
    have := (List.getElem?_eq_some_iff.mp hr).1
    omega
  have hl := h2 row (List.mem_of_getElem? hr)
  match row, hl with
  | [v], _ =>
    have hv := h3 i 0 v (at_row hr rfl)
    have := (h5 i hi).symm.trans hx
    rw [show 0 + i = 0 + i * 1 + 0 by omega, hv] at this
    exact Option.some.inj this ▸ .one (number_read t v)

/-- **C144** `samples` of Ruby returns all the samples that the library makes, in order, for any number of them and any number of
dimensions. -/
theorem C144_ruby_samples {M : Machine σ} {d : Sampler σ} (hd : Made M d) {n : Nat} {g : σ} {out : Option (Out (Rows × σ))}
    (hlay : Layouts d n g out) : Reports (ShownAll d.types) out (Rb.samples d n g) := by
  by_cases hn : n = 0
  · subst hn
    rw [nothing_drawn hlay]
    exact ⟨[], rfl, rfl, by simp⟩
  · unfold Rb.samples
    rw [if_neg hn]
    refine reports_of_fills (hlay.contiguous 0) fun rows mem h1 h2 h3 => ?_
    by_cases hdim : d.dim = 1
    · obtain ⟨t, ht⟩ := one_type hd hdim
      rw [hdim] at h2 h3
      refine ⟨readColumn t mem n 0, ?_, ht ▸ shown_column h1 h2 h3⟩
      rw [if_pos hdim, ht]; cases t <;> rfl
    · have hts := made_types hd
      obtain ⟨h4, h5⟩ := readRows_get d.dim d.types mem n 0
      refine ⟨_, if_neg hdim, h4.trans h1.symm, fun i row x hr hx => ?_⟩
      have hi : i < n := by
        have := (List.getElem?_eq_some_iff.mp hr).1
        omega
      have := (h5 i hi).symm.trans hx
      refine Option.some.inj this ▸ shown_row (by omega) (by rw [h2 row (List.mem_of_getElem? hr), hts]) fun c v hv => ?_
      have := h3 i c v (at_row hr hv)
      simpa using this

/-- **C144** `samples` of Python returns all the samples that the library makes, in order, for distributions of one dimension.
Missing for the full claim: the other ones, see `C144_python_samples_refused`. -/
theorem C144_python_samples_partial {M : Machine σ} {d : Sampler σ} (hd : Made M d) (hdim : d.dim = 1) {n : Nat} {g : σ}
    {out : Option (Out (Rows × σ))} (hlay : Layouts d n g out) : Reports (ShownAll d.types) out (Py.samples d n g) := by
  by_cases hn : n = 0
  · subst hn
    rw [nothing_drawn hlay]
    exact ⟨[], rfl, rfl, by simp⟩
  · obtain ⟨t, ht⟩ := one_type hd hdim
    unfold Py.samples
    rw [if_neg hn, if_pos hdim, ht]
    refine reports_of_fills (hlay.contiguous 0) fun rows mem h1 h2 h3 => ?_
    rw [hdim] at h2 h3
    exact ⟨_, rfl, shown_column h1 h2 h3⟩

/-- **C144** fails: `samples` of Python never gives a sample of a distribution of several dimensions, and raises an exception
instead, though `samples` of Ruby gives those of the library. -/
theorem C144_python_samples_refused {M : Machine σ} {d : Sampler σ} (hd : Made M d) (hdim : d.dim ≠ 1) {n : Nat} (hn : n ≠ 0) {g g' : σ}
    {rows : Rows} (hlay : Layouts d n g (some (.ok (rows, g')))) : Py.samples d n g = some (.err .external) ∧
      ∃ xs, Rb.samples d n g = some (.ok (xs, g')) ∧ ShownAll d.types rows xs := by
  refine ⟨?_, C144_ruby_samples hd hlay⟩
  unfold Py.samples
  rw [if_neg hn, if_neg hdim]

theorem one_bound {M : Machine σ} {d : Sampler σ} (hd : Made M d) (h1 : d.dim = 1) : ∃ b, d.bounds = [b] := by
  have := (made_shape hd).1
  match hb : d.bounds with
  | [t] => exact ⟨t, rfl⟩
  | [] => rw [hb] at this; simp at this; omega
  | _ :: _ :: _ => rw [hb] at this; simp at this; omega

/-- **C144** `bounds` of Python and of Ruby return the bounds of a distribution of one dimension, and `is_oversampling` and
`oversampling?` compare them with the interval given: when they answer no, every value of the bounds is in the interval.  Missing for
the full claim: several dimensions, see `C144_bounds_overflow`. -/
theorem C144_bounds_partial {M : Machine σ} {d : Sampler σ} (hd : Made M d) (hdim : d.dim = 1) : ∃ b, d.bounds = [b] ∧
    Py.bounds d = .ok b ∧ Rb.bounds d = .ok b ∧
    (∀ iv, Py.isOversampling d iv = checkOversampling b iv ∧ Rb.isOversampling d iv = checkOversampling b iv) ∧
    ∀ iv, Proper iv → (Py.isOversampling d iv = .ok false ∨ Rb.isOversampling d iv = .ok false) → ∀ v, Mem b v → Mem iv v := by
  obtain ⟨b, hb⟩ := one_bound hd hdim
  have ho : ∀ iv, Py.isOversampling d iv = checkOversampling b iv ∧ Rb.isOversampling d iv = checkOversampling b iv := by
    intro iv
    unfold Py.isOversampling Rb.isOversampling
    rw [hb]
    unfold oversamplingLoop
    cases checkOversampling b iv <;> exact ⟨rfl, rfl⟩
  refine ⟨b, hb, ?_, ?_, ho, fun iv hiv h v hv => C31_no_oversampling_contained b iv hiv ?_ v hv⟩
  · unfold Py.bounds; rw [hb]; rfl
  · unfold Rb.bounds; rw [hb]; rfl
  · rw [(ho iv).1, (ho iv).2] at h
    exact h.elim id id

/-- **C144** fails for every distribution of several dimensions: `bounds` gives the library room for one interval, and it writes one
for each dimension; asked about the interval of its first dimension, `is_oversampling` never answers. -/
theorem C144_bounds_overflow {M : Machine σ} {d : Sampler σ} (hd : Made M d) (hdim : 2 ≤ d.dim) :
    Py.bounds d = .ub ∧ Rb.bounds d = .ub ∧
    ∀ iv, (∀ o, Py.isOversampling d iv ≠ .ok o) ∧ (∀ o, Rb.isOversampling d iv ≠ .ok o) ∧
      (∀ o b, d.bounds.head? = some b → checkOversampling b iv = .ok o → Py.isOversampling d iv = .ub ∧ Rb.isOversampling d iv = .ub) := by
  have hl := (made_shape hd).1
  match hb : d.bounds with
  | [] => rw [hb] at hl; simp at hl; omega
  | [_] => rw [hb] at hl; simp at hl; omega
  | b :: c :: bs =>
    have hp : ∀ iv, Py.isOversampling d iv = (checkOversampling b iv >>= fun _ => .ub) := by
      intro iv
      unfold Py.isOversampling
      rw [hb]
      unfold oversamplingLoop
      cases checkOversampling b iv <;> rfl
    have hr : ∀ iv, Rb.isOversampling d iv = (checkOversampling b iv >>= fun _ => .ub) := by
      intro iv
      unfold Rb.isOversampling
      rw [hb]
      unfold oversamplingLoop
      cases checkOversampling b iv <;> rfl
    refine ⟨by unfold Py.bounds; rw [hb]; rfl, by unfold Rb.bounds; rw [hb]; rfl, fun iv => ⟨fun o h => ?_, fun o h => ?_, ?_⟩⟩
    · rw [hp iv] at h; revert h; cases checkOversampling b iv <;> exact fun h => nomatch h
    · rw [hr iv] at h; revert h; cases checkOversampling b iv <;> exact fun h => nomatch h
    · intro o b' hb' ho
      obtain rfl := Option.some.inj hb'
      rw [hp iv, hr iv, ho]
      exact ⟨rfl, rfl⟩

/-- A die and a pair of dice meet the hypotheses, and this is what is sampled of them. -/
def exShow {α : Type} (x : Out (Sampler Nat)) (f : Sampler Nat → Option (Out (α × Nat))) : Option α :=
  match x with
  | .ok d => match f d with
    | some (.ok (a, _)) => some a
    | _ => none
  | _ => none

def exDieAlone : Out (Sampler Nat) := createUniform exMachine .int 1#64 7#64 false 0#64

example : exShow exDieAlone (Py.sample · 3) = some (.one (.int 4)) ∧ exShow exDice (Py.sample · 3) = some (.many [.int 4, .int 5]) ∧
    exShow exDieAlone (Py.samples · 2 3) = some [.one (.int 4), .one (.int 5)] ∧ exShow exDice (Py.samples · 2 3) = none ∧
    exShow exDice (Rb.samples · 2 3) = some [.many [.int 4, .int 6], .many [.int 5, .int 1]] := by decide +kernel

example : ∃ d, Made exMachine d ∧ 2 ≤ d.dim ∧ ∃ rows g', Layouts d 2 3 (some (.ok (rows, g'))) := by
  obtain ⟨d, h1, h2⟩ := exDice_made
  obtain ⟨out, hlay⟩ := C77_layouts_partial h2 2 3
  have hs : exShow exDice (Rb.samples · 2 3) = some [.many [.int 4, .int 6], .many [.int 5, .int 1]] := by decide +kernel
  have hdim : (match exDice with | .ok d => d.dim | _ => 0) = 2 := by decide +kernel
  rw [h1] at hs hdim
  have hrep := C144_ruby_samples h2 hlay
  unfold Reports at hrep
  simp only [exShow] at hs
  refine ⟨d, h2, Nat.le_of_eq hdim.symm, ?_⟩
  match out, hlay, hrep with
  | none, _, h => rw [h] at hs; cases hs
  | some .ub, _, h => rw [h] at hs; cases hs
  | some (.err e), _, h => rw [h] at hs; cases hs
  | some (.ok (rows, g')), hlay, _ => exact ⟨rows, g', hlay⟩

example : ∃ d, Made exMachine d ∧ d.dim = 1 := by
  obtain ⟨d, h⟩ := exists_of_isOk (x := exDieAlone) (by decide +kernel)
  have hdim : (match exDieAlone with | .ok d => d.dim | _ => 0) = 1 := by decide +kernel
  rw [h] at hdim
  exact ⟨d, .uniform h, hdim⟩

end CCS.Props
