import Verif.Spec.DistWire
import Verif.Lemmas.WireObj
import Verif.Lemmas.Distribution

/-! Helper lemmas about the serialization of distributions. -/

namespace CCS

open Spec

/-! ### Readers with any outcome -/

theorem readsAs_ok {r : Rd α} {bs : Bytes} {x : α} (h : ReadsBack r bs x) : ReadsAs r bs (.ok x) := h

theorem readsAs_lift (o : Out α) : ReadsAs (Rd.lift o) [] o := by
  intro tail
  cases o <;> rfl

theorem readsAs_bind {r : Rd α} {f : α → Rd β} {b₁ b₂ : Bytes} {o : Out α} {g : α → Out β}
    (h₁ : ReadsAs r b₁ o) (h₂ : ∀ x, o = .ok x → ReadsAs (f x) b₂ (g x)) : ReadsAs (r >>= f) (b₁ ++ b₂) (o >>= g) := by
  intro tail
  rw [Rd.bind_eq, List.append_assoc, h₁]
  cases o with
  | ok x => exact h₂ x rfl tail
  | err e => rfl
  | ub => rfl

theorem readsAs_step {r : Rd α} {f : α → Rd β} {b₁ b₂ : Bytes} {x : α} {o : Out β}
    (h₁ : ReadsBack r b₁ x) (h₂ : ReadsAs (f x) b₂ o) : ReadsAs (r >>= f) (b₁ ++ b₂) o := by
  intro tail
  rw [Rd.bind_eq, List.append_assoc, h₁]
  exact h₂ tail

theorem readsAs_peek {r : Rd α} {f : α → Rd β} {b₁ b₂ : Bytes} {x : α} {o : Out β}
    (h₁ : ReadsBack r b₁ x) (h₂ : ReadsAs (f x) (b₁ ++ b₂) o) : ReadsAs (Rd.peek r >>= f) (b₁ ++ b₂) o := by
  intro tail
  have := h₂ tail
  rw [Rd.bind_eq]
  unfold Rd.peek
  rw [List.append_assoc] at this ⊢
  rw [h₁]
  exact this

theorem readsAs_pass {c : Prop} [Decidable c] (hc : ¬ c) {e : Err} {f : Unit → Rd β} {b : Bytes} {o : Out β}
    (h : ReadsAs (f ()) b o) : ReadsAs (Rd.lift (refute c e) >>= f) b o := by
  intro tail
  rw [refute_false hc]
  exact h tail

namespace DistObj

/-! ### Bytes -/

/-- Bytes of a numeric. -/
def numericBytes (t : NumType) (v : BitVec 64) : Bytes := if t = .float then leBytes 8 v.toNat else lebBytes (zigzag v)

theorem writes_numeric (little : Bool) (t : NumType) (v : BitVec 64) :
    WritesBytes (serNumeric little t v) (numericBytes t v) := by
  cases t
  · exact writes_int v
  · exact writes_u64 little v

theorem length_numeric (t : NumType) (v : BitVec 64) : (numericBytes t v).length = szNumeric t v := by
  cases t
  · exact length_signed v
  · exact length_leBytes _ _

theorem reads_numeric (little : Bool) (t : NumType) (v : BitVec 64) :
    ReadsBack (deNumeric little t.code) (numericBytes t v) v := by
  cases t
  · exact (decodes_int v).1
  · exact (decodes_u64 little v).1

/-- Bytes of the data of a uniform distribution. -/
def uniformBytes (u : Uniform) : Bytes :=
  lebBytes 0#32 ++ (lebBytes u.type.code ++ (lebBytes (scaleCode u.log) ++ (numericBytes u.type u.lower ++
    (numericBytes u.type u.upper ++ numericBytes u.type u.quantization))))

/-- Bytes of the data of a normal distribution. -/
def normalBytes (d : Normal) : Bytes :=
  lebBytes 1#32 ++ (lebBytes d.type.code ++ (lebBytes (scaleCode d.log) ++ (leBytes 8 d.mu.toNat ++
    (leBytes 8 d.sigma.toNat ++ numericBytes d.type d.quantization))))

/-- Bytes of the data of a roulette distribution. -/
def rouletteBytes (ops : FloatOps) (r : Roulette) : Bytes :=
  lebBytes 2#32 ++ (lebBytes (BitVec.ofNat 64 r.numAreas) ++
    (widths ops r.numAreas r.areas).flatMap fun x => leBytes 8 x.toNat)

mutual

/-- Bytes of a distribution. -/
def bytes (ops : FloatOps) (addr : List Nat → BitVec 64) : DistObj → Bytes
  | uniform u data => objBytes distributionType (addr []) ++ (uniformBytes u ++ blobBytes data)
  | normal d data => objBytes distributionType (addr []) ++ (normalBytes d ++ blobBytes data)
  | roulette r data => objBytes distributionType (addr []) ++ (rouletteBytes ops r ++ blobBytes data)
  | mixture m ds data => objBytes distributionType (addr []) ++ ((lebBytes 3#32 ++ (lebBytes (BitVec.ofNat 64 ds.length) ++
      bytesWeighted ops addr 0 ds (widths ops ds.length m.weights))) ++ blobBytes data)
  | multivariate ds data => objBytes distributionType (addr []) ++ ((lebBytes 4#32 ++
      (lebBytes (BitVec.ofNat 64 ds.length) ++ bytesAll ops addr 0 ds)) ++ blobBytes data)

/-- Bytes of weighted components. -/
def bytesWeighted (ops : FloatOps) (addr : List Nat → BitVec 64) (i : Nat) : List DistObj → List F64 → Bytes
  | d :: ds, w :: ws => (leBytes 8 w.toNat ++ bytes ops (fun p => addr (i :: p)) d) ++ bytesWeighted ops addr (i + 1) ds ws
  | _, _ => []

/-- Bytes of components. -/
def bytesAll (ops : FloatOps) (addr : List Nat → BitVec 64) (i : Nat) : List DistObj → Bytes
  | [] => []
  | d :: ds => bytes ops (fun p => addr (i :: p)) d ++ bytesAll ops addr (i + 1) ds

end

/-! ### Writing -/

theorem writes_uniform (little : Bool) (u : Uniform) : WritesBytes (serUniform little u) (uniformBytes u) :=
  writes_seq (writes_enum _) (writes_seq (writes_enum _) (writes_seq (writes_enum _) (writes_seq (writes_numeric _ _ _)
    (writes_seq (writes_numeric _ _ _) (writes_numeric _ _ _)))))

theorem writes_normal (little : Bool) (d : Normal) : WritesBytes (serNormal little d) (normalBytes d) :=
  writes_seq (writes_enum _) (writes_seq (writes_enum _) (writes_seq (writes_enum _) (writes_seq (writes_u64 _ _)
    (writes_seq (writes_u64 _ _) (writes_numeric _ _ _)))))

theorem writes_roulette (ops : FloatOps) (little : Bool) (r : Roulette) :
    WritesBytes (serRoulette ops little r) (rouletteBytes ops r) :=
  writes_seq (writes_enum _) (writes_seq (writes_size _) (writes_all _ fun _ _ => writes_u64 _ _))

theorem length_uniform (u : Uniform) : (uniformBytes u).length = szUniform u := by
  simp only [uniformBytes, szUniform, List.length_append, length_leb, length_numeric, szEnum]; omega

theorem length_normal (d : Normal) : (normalBytes d).length = szNormal d := by
  simp only [normalBytes, szNormal, List.length_append, length_leb, length_numeric, szEnum, length_leBytes, szU64Fixed]; omega

theorem length_floats (l : List F64) : (l.flatMap fun x => leBytes 8 x.toNat).length = (l.map szU64Fixed).sum := by
  induction l with
  | nil => rfl
  | cons x l ih => simp [List.flatMap_cons, ih, length_leBytes, szU64Fixed]

theorem length_roulette (ops : FloatOps) (r : Roulette) : (rouletteBytes ops r).length = szRoulette ops r := by
  simp only [rouletteBytes, szRoulette, List.length_append, length_leb, length_floats, szEnum, szSize]; omega

mutual

theorem writes_dist (ops : FloatOps) (little : Bool) : ∀ (d : DistObj) (addr : List Nat → BitVec 64),
    WritesBytes (write ops little addr d) (bytes ops addr d)
  | uniform u data, addr => by
    rw [write, bytes]
    exact writes_seq (writes_obj _ _) (writes_seq (writes_uniform little u) (writes_userData data))
  | normal d data, addr => by
    rw [write, bytes]
    exact writes_seq (writes_obj _ _) (writes_seq (writes_normal little d) (writes_userData data))
  | roulette r data, addr => by
    rw [write, bytes]
    exact writes_seq (writes_obj _ _) (writes_seq (writes_roulette ops little r) (writes_userData data))
  | mixture m ds data, addr => by
    rw [write, bytes]
    exact writes_seq (writes_obj _ _) (writes_seq (writes_seq (writes_enum _) (writes_seq (writes_size _)
      (writes_weighted ops little ds addr 0 _))) (writes_userData data))
  | multivariate ds data, addr => by
    rw [write, bytes]
    exact writes_seq (writes_obj _ _) (writes_seq (writes_seq (writes_enum _) (writes_seq (writes_size _)
      (writes_dists ops little ds addr 0))) (writes_userData data))

theorem writes_weighted (ops : FloatOps) (little : Bool) : ∀ (ds : List DistObj) (addr : List Nat → BitVec 64) (i : Nat)
    (ws : List F64), WritesBytes (writeWeighted ops little addr i ds ws) (bytesWeighted ops addr i ds ws)
  | [], addr, i, ws => by rw [writeWeighted, bytesWeighted]; exact writes_nop; all_goals simp
  | d :: ds, addr, i, [] => by rw [writeWeighted, bytesWeighted]; exact writes_nop; all_goals simp
  | d :: ds, addr, i, w :: ws => by
    rw [writeWeighted, bytesWeighted, List.append_assoc]
    exact writes_seq (writes_u64 _ _) (writes_seq (writes_dist ops little d _) (writes_weighted ops little ds addr (i + 1) ws))

theorem writes_dists (ops : FloatOps) (little : Bool) : ∀ (ds : List DistObj) (addr : List Nat → BitVec 64) (i : Nat),
    WritesBytes (writeAll ops little addr i ds) (bytesAll ops addr i ds)
  | [], addr, i => by rw [writeAll, bytesAll]; exact writes_nop
  | d :: ds, addr, i => by
    rw [writeAll, bytesAll]
    exact writes_seq (writes_dist ops little d _) (writes_dists ops little ds addr (i + 1))

end

mutual

theorem length_dist (ops : FloatOps) : ∀ (d : DistObj) (addr : List Nat → BitVec 64),
    (bytes ops addr d).length = size ops addr d
  | uniform u data, addr => by
    rw [size, bytes]; simp only [List.length_append, length_obj, length_uniform, length_userData]; omega
  | normal d data, addr => by
    rw [size, bytes]; simp only [List.length_append, length_obj, length_normal, length_userData]; omega
  | roulette r data, addr => by
    rw [size, bytes]; simp only [List.length_append, length_obj, length_roulette, length_userData]; omega
  | mixture m ds data, addr => by
    have := length_weighted ops ds addr 0 (widths ops ds.length m.weights)
    rw [size, bytes]; simp only [List.length_append, length_obj, length_userData, length_leb, szEnum, szSize, this]; omega
  | multivariate ds data, addr => by
    have := length_dists ops ds addr 0
    rw [size, bytes]; simp only [List.length_append, length_obj, length_userData, length_leb, szEnum, szSize, this]; omega

theorem length_weighted (ops : FloatOps) : ∀ (ds : List DistObj) (addr : List Nat → BitVec 64) (i : Nat) (ws : List F64),
    (bytesWeighted ops addr i ds ws).length = sizeWeighted ops addr i ds ws
  | [], addr, i, ws => by rw [sizeWeighted, bytesWeighted]; rfl; all_goals simp
  | d :: ds, addr, i, [] => by rw [sizeWeighted, bytesWeighted]; rfl; all_goals simp
  | d :: ds, addr, i, w :: ws => by
    have h1 := length_dist ops d fun p => addr (i :: p)
    have h2 := length_weighted ops ds addr (i + 1) ws
    rw [sizeWeighted, bytesWeighted]; simp only [List.length_append, length_leBytes, szU64Fixed, h1, h2]

theorem length_dists (ops : FloatOps) : ∀ (ds : List DistObj) (addr : List Nat → BitVec 64) (i : Nat),
    (bytesAll ops addr i ds).length = sizeAll ops addr i ds
  | [], addr, i => by rw [sizeAll, bytesAll]; rfl
  | d :: ds, addr, i => by
    have h1 := length_dist ops d fun p => addr (i :: p)
    have h2 := length_dists ops ds addr (i + 1)
    rw [sizeAll, bytesAll]; simp only [List.length_append, h1, h2]

end

/-! ### Reading -/

variable {σ : Type}

theorem typeOf_code (t : NumType) : typeOf t.code = .ok t := by cases t <;> rfl

theorem scaleOf_code (b : Bool) : scaleOf (scaleCode b) = .ok b := by cases b <;> rfl

theorem readsAs_end {r : Rd α} {o : Out α} {b : Bytes} (h : ReadsAs r (b ++ []) o) : ReadsAs r b o := by
  rwa [List.append_nil] at h

theorem readsAs_uniform (M : Machine σ) (little : Bool) (u : Uniform) :
    ReadsAs (deUniform M little) (uniformBytes u) (newUniform M u.type u.lower u.upper u.log u.quantization) := by
  refine readsAs_step (decodes_enum _).1 (readsAs_step (decodes_enum _).1 (readsAs_step (decodes_enum _).1
    (readsAs_step (reads_numeric little _ _) (readsAs_step (reads_numeric little _ _) (readsAs_end
      (readsAs_step (reads_numeric little _ _) ?_))))))
  rw [typeOf_code, scaleOf_code]
  exact readsAs_lift (newUniform M u.type u.lower u.upper u.log u.quantization)

theorem readsAs_normal (little : Bool) (d : Normal) :
    ReadsAs (deNormal little) (normalBytes d) (newNormal d.type d.mu d.sigma d.log d.quantization) := by
  refine readsAs_step (decodes_enum _).1 (readsAs_step (decodes_enum _).1 (readsAs_step (decodes_enum _).1
    (readsAs_step (decodes_u64 little _).1 (readsAs_step (decodes_u64 little _).1 (readsAs_end
      (readsAs_step (reads_numeric little _ _) ?_))))))
  rw [typeOf_code, scaleOf_code]
  exact readsAs_lift (newNormal d.type d.mu d.sigma d.log d.quantization)

theorem reads_areas (little : Bool) {room : Nat} : ∀ (l : List F64) (i : Nat), 8 * (i + l.length) ≤ room →
    ReadsBack (deAreas little room l.length i) (l.flatMap fun x => leBytes 8 x.toNat) l
  | [], i, _ => reads_pure _
  | x :: l, i, h => by
    rw [List.length_cons] at h
    rw [List.length_cons, deAreas, List.flatMap_cons]
    refine reads_bind (decodes_u64 little x).1 ?_
    rw [if_neg (by omega)]
    exact reads_bind_pure (reads_areas little l (i + 1) (by omega)) rfl

theorem length_widths (ops : FloatOps) (n : Nat) (l : List F64) : (widths ops n l).length = n := by simp [widths]

theorem readsAs_roulette (ops : FloatOps) (little : Bool) {r : Roulette} (h : r.numAreas < 2 ^ 61) :
    ReadsAs (deRoulette ops little) (rouletteBytes ops r) (newRoulette ops (widths ops r.numAreas r.areas)) := by
  refine readsAs_step (decodes_enum _).1 (readsAs_step (decodes_size (by omega)).1 (readsAs_end (readsAs_step
    (x := widths ops r.numAreas r.areas) ?_ (readsAs_lift _))))
  have := reads_areas little (room := 8 * r.numAreas % 2 ^ 64) (widths ops r.numAreas r.areas) 0
    (by rw [length_widths]; omega)
  rwa [length_widths] at this

/-- `recreateAll` together with the weights. -/
def pairUp (M : Machine σ) : List DistObj → List F64 → Out (List (F64 × DistObj))
  | d :: ds, w :: ws => do
    let c ← recreate M d
    let cs ← pairUp M ds ws
    .ok ((w, c) :: cs)
  | _, _ => .ok []

theorem pairUp_eq (M : Machine σ) : ∀ (ds : List DistObj) (ws : List F64), ws.length = ds.length →
    pairUp M ds ws = (recreateAll M ds >>= fun cs => .ok (ws.zip cs)) ∧
      ∀ cs, recreateAll M ds = .ok cs → cs.length = ds.length
  | [], ws, h => by
    have : ws = [] := List.length_eq_zero_iff.mp h
    subst this
    simp [pairUp, recreateAll]
  | d :: ds, [], h => by simp at h
  | d :: ds, w :: ws, h => by
    obtain ⟨h1, h2⟩ := pairUp_eq M ds ws (by simpa using h)
    rw [pairUp, recreateAll, h1]
    cases recreate M d with
    | err e => simp
    | ub => simp
    | ok c =>
      cases hr : recreateAll M ds with
      | err e => simp
      | ub => simp
      | ok cs => simp [h2 cs hr]

theorem zip_maps {α β : Type} : ∀ (xs : List α) (ys : List β), xs.length = ys.length →
    (xs.zip ys).map (·.2) = ys ∧ (xs.zip ys).map (·.1) = xs
  | [], [], _ => ⟨rfl, rfl⟩
  | x :: xs, y :: ys, h => by
    obtain ⟨h1, h2⟩ := zip_maps xs ys (by simpa using h)
    simp [h1, h2]
  | [], y :: ys, h => by simp at h
  | x :: xs, [], h => by simp at h

theorem obj_length (h : BitVec 64) : 0 < (objBytes distributionType h).length := by
  have : 0 < (lebBytes distributionType).length := by decide +kernel
  rw [objBytes, List.length_append]
  omega

/-- The fixed part of reading a distribution: its header, its kind, its data, its user data. -/
theorem readsAs_shell (M : Machine σ) (little : Bool) {fuel : Nat} {h : BitVec 64} {code : BitVec 32} {rest : Bytes} {data : Bytes}
    {o : Out DistObj} {r : Rd DistObj} (hd : data.length < 2 ^ 64)
    (hr : (match code.toNat with
      | 0 => deUniform M little
      | 1 => deNormal little
      | 2 => deRoulette M.ops little
      | 3 => deMixture M little (readFuel M little fuel)
      | 4 => deMultivariate M (readFuel M little fuel)
      | _ => Rd.fail .unsupportedOperation) = r)
    (ho : ReadsAs r (lebBytes code ++ rest) o) :
    ReadsAs (readFuel M little (fuel + 1)) (objBytes distributionType h ++ ((lebBytes code ++ rest) ++ blobBytes data))
      (o >>= fun d => .ok (d.withData data)) := by
  rw [readFuel]
  refine readsAs_step (decodes_obj _ _).1 (readsAs_pass (by simp) ?_)
  rw [List.append_assoc]
  refine readsAs_peek (decodes_enum code).1 ?_
  rw [← List.append_assoc]
  show ReadsAs ((match code.toNat with
      | 0 => deUniform M little
      | 1 => deNormal little
      | 2 => deRoulette M.ops little
      | 3 => deMixture M little (readFuel M little fuel)
      | 4 => deMultivariate M (readFuel M little fuel)
      | _ => Rd.fail .unsupportedOperation) >>= _) _ _
  rw [hr]
  exact readsAs_bind ho fun x _ => readsAs_ok (reads_bind_pure (reads_userData hd) rfl)

mutual

theorem readsAs_dist (M : Machine σ) (little : Bool) : ∀ (d : DistObj) (addr : List Nat → BitVec 64) (fuel : Nat), StorableDist d →
    (bytes M.ops addr d).length < fuel → ReadsAs (readFuel M little fuel) (bytes M.ops addr d) (recreate M d)
  | d, addr, 0, _, h => by omega
  | uniform u data, addr, fuel + 1, hs, _ => by
    cases hs with | uniform hd =>
    rw [bytes, recreate]
    exact readsAs_shell M little hd rfl (readsAs_uniform M little u)
  | normal n data, addr, fuel + 1, hs, _ => by
    cases hs with | normal hd =>
    rw [bytes, recreate]
    exact readsAs_shell M little hd rfl (readsAs_normal little n)
  | roulette r data, addr, fuel + 1, hs, _ => by
    cases hs with | roulette hn hd =>
    rw [bytes, recreate]
    exact readsAs_shell M little hd rfl (readsAs_roulette M.ops little hn)
  | mixture m ds data, addr, fuel + 1, hs, h => by
    cases hs with | mixture hn hc hd =>
    rw [bytes] at h ⊢
    rw [recreate]
    have hl : (bytesWeighted M.ops addr 0 ds (widths M.ops ds.length m.weights)).length < fuel := by
      have := obj_length (addr [])
      simp only [List.length_append] at h
      omega
    have hw := length_widths M.ops ds.length m.weights
    have key := readsAs_weighted M little ds addr fuel 0 (widths M.ops ds.length m.weights) hw hc hl
    obtain ⟨h1, h2⟩ := pairUp_eq M ds (widths M.ops ds.length m.weights) hw
    have : ReadsAs (deMixture M little (readFuel M little fuel)) (lebBytes 3#32 ++ (lebBytes (BitVec.ofNat 64 ds.length) ++
        bytesWeighted M.ops addr 0 ds (widths M.ops ds.length m.weights)))
        (recreateAll M ds >>= fun cs => newMixture M cs (widths M.ops ds.length m.weights)) := by
      refine readsAs_step (decodes_enum _).1 (readsAs_step (decodes_size (by omega)).1 (readsAs_pass (by omega)
        (readsAs_end ?_)))
      have step := readsAs_bind (f := fun l : List (F64 × DistObj) => Rd.lift (newMixture M (l.map (·.2)) (l.map (·.1)))) key
        (b₂ := []) (g := fun l => newMixture M (l.map (·.2)) (l.map (·.1))) fun x _ => readsAs_lift _
      rw [h1] at step
      cases hr : recreateAll M ds with
      | err e => rw [hr] at step; exact step
      | ub => rw [hr] at step; exact step
      | ok cs =>
        rw [hr] at step
        obtain ⟨e1, e2⟩ := zip_maps (widths M.ops ds.length m.weights) cs (by rw [hw, h2 cs hr])
        simp only [Out.bind_ok, e1, e2] at step ⊢
        exact step
    have := readsAs_shell M little (fuel := fuel) (h := addr []) (code := 3#32) hd rfl this
    cases hr : recreateAll M ds <;> (rw [hr] at this; exact this)
  | multivariate ds data, addr, fuel + 1, hs, h => by
    cases hs with | multivariate hn hc hd =>
    rw [bytes] at h ⊢
    rw [recreate]
    have hl : (bytesAll M.ops addr 0 ds).length < fuel := by
      have := obj_length (addr [])
      simp only [List.length_append] at h
      omega
    have key := readsAs_dists M little ds addr fuel 0 hc hl
    have : ReadsAs (deMultivariate M (readFuel M little fuel)) (lebBytes 4#32 ++ (lebBytes (BitVec.ofNat 64 ds.length) ++
        bytesAll M.ops addr 0 ds)) (recreateAll M ds >>= fun cs => newMultivariate M cs) := by
      refine readsAs_step (decodes_enum _).1 (readsAs_step (decodes_size (by omega)).1 (readsAs_pass (by omega)
        (readsAs_end ?_)))
      exact readsAs_bind key fun x _ => readsAs_lift _
    have := readsAs_shell M little (fuel := fuel) (h := addr []) (code := 4#32) hd rfl this
    cases hr : recreateAll M ds <;> (rw [hr] at this; exact this)

theorem readsAs_weighted (M : Machine σ) (little : Bool) : ∀ (ds : List DistObj) (addr : List Nat → BitVec 64) (fuel i : Nat)
    (ws : List F64), ws.length = ds.length → (∀ c ∈ ds, StorableDist c) → (bytesWeighted M.ops addr i ds ws).length < fuel →
    ReadsAs (Rd.times (deWeighted little (readFuel M little fuel)) ds.length) (bytesWeighted M.ops addr i ds ws) (pairUp M ds ws)
  | [], addr, fuel, i, ws, _, _, _ => by
    rw [bytesWeighted, pairUp]
    · exact readsAs_ok (reads_pure _)
    all_goals simp
  | d :: ds, addr, fuel, i, [], h, _, _ => by simp at h
  | d :: ds, addr, fuel, i, w :: ws, h, hs, hl => by
    rw [bytesWeighted] at hl ⊢
    simp only [List.length_append, length_leBytes] at hl
    rw [pairUp, List.length_cons, Rd.times]
    have h1 := readsAs_dist M little d (fun p => addr (i :: p)) fuel (hs d (by simp)) (by omega)
    have h2 := readsAs_weighted M little ds addr fuel (i + 1) ws (by simpa using h) (fun c hc => hs c (by simp [hc])) (by omega)
    have h3 : ReadsAs (deWeighted little (readFuel M little fuel)) (leBytes 8 w.toNat ++ bytes M.ops (fun p => addr (i :: p)) d)
        (recreate M d >>= fun c => .ok (w, c)) :=
      readsAs_step (decodes_u64 little w).1 (readsAs_end (readsAs_bind h1 fun x _ => readsAs_ok (reads_pure _)))
    have h4 := readsAs_bind (f := fun x => Rd.times (deWeighted little (readFuel M little fuel)) ds.length >>= fun xs => pure (x :: xs))
      (g := fun x => pairUp M ds ws >>= fun xs => .ok (x :: xs)) h3
      fun x _ => readsAs_end (readsAs_bind h2 fun y _ => readsAs_ok (reads_pure _))
    cases hr : recreate M d <;> (rw [hr] at h4; exact h4)

theorem readsAs_dists (M : Machine σ) (little : Bool) : ∀ (ds : List DistObj) (addr : List Nat → BitVec 64) (fuel i : Nat),
    (∀ c ∈ ds, StorableDist c) → (bytesAll M.ops addr i ds).length < fuel →
    ReadsAs (Rd.times (readFuel M little fuel) ds.length) (bytesAll M.ops addr i ds) (recreateAll M ds)
  | [], addr, fuel, i, _, _ => by
    rw [bytesAll, recreateAll]
    exact readsAs_ok (reads_pure _)
  | d :: ds, addr, fuel, i, hs, hl => by
    rw [bytesAll] at hl ⊢
    simp only [List.length_append] at hl
    rw [recreateAll, List.length_cons, Rd.times]
    have h1 := readsAs_dist M little d (fun p => addr (i :: p)) fuel (hs d (by simp)) (by omega)
    have h2 := readsAs_dists M little ds addr fuel (i + 1) (fun c hc => hs c (by simp [hc])) (by omega)
    exact readsAs_bind h1 fun x _ => readsAs_end (readsAs_bind h2 fun y _ => readsAs_ok (reads_pure _))

end

end DistObj

end CCS
