import Verif.Spec.RunWire
import Verif.Lemmas.SpaceWire
import Verif.Props.Binding

/-! Helper lemmas about the serialization of bindings and evaluations. -/

namespace CCS

open Spec

theorem bind_bind {α β γ : Type} (x : Out α) (f : α → Out β) (g : β → Out γ) : (x >>= f) >>= g = x >>= fun a => f a >>= g := by
  cases x <;> rfl

theorem readsAs_lift_bind {α β : Type} {o : Out α} {f : α → Rd β} {b : Bytes} {g : α → Out β}
    (h : ∀ x, o = .ok x → ReadsAs (f x) b (g x)) : ReadsAs (Rd.lift o >>= f) b (o >>= g) := by
  have := readsAs_bind (readsAs_lift o) h
  rwa [List.nil_append] at this

theorem readsAs_lift_ok {α β : Type} {x : α} {f : α → Rd β} {b : Bytes} {o : Out β} (h : ReadsAs (f x) b o) :
    ReadsAs (Rd.lift (.ok x) >>= f) b o := fun tail => h tail

theorem readsAs_done {α : Type} (x : α) : ReadsAs (pure x : Rd α) [] (.ok x) := readsAs_ok (reads_pure x)

/-! ### Bindings -/

/-- Bytes of the space and values of a binding. -/
def bindingBytes (b : Binding) : Bytes :=
  lebBytes b.context ++ (lebBytes (BitVec.ofNat 64 b.values.length) ++ b.values.flatMap fun d => datumBytes d.v)

theorem StorableBinding_writable {b : Binding} (h : StorableBinding b) : ∀ d ∈ b.values, d.v.Writable := fun d hd => by
  have := h.values d hd
  cases hv : d.v with
  | str s =>
    rw [hv] at this
    obtain ⟨t, rfl, h1, h2⟩ := this
    exact ⟨h1, h2⟩
  | _ => trivial

theorem writes_binding (little : Bool) {b : Binding} (h : StorableBinding b) : WritesBytes (serBindingData little b) (bindingBytes b) :=
  writes_seq (writes_handle _) (writes_seq (writes_size _) (writes_all _ fun d hd => writes_datum _ _ (StorableBinding_writable h d hd)))

theorem length_binding {b : Binding} (h : StorableBinding b) : szBindingData b = .ok (bindingBytes b).length := by
  have hd : szDatums (b.values.map (·.v)) = .ok ((b.values.map (·.v)).flatMap datumBytes).length :=
    length_datums _ fun v hv => by
      obtain ⟨d, hd, rfl⟩ := List.mem_map.mp hv
      exact StorableBinding_writable h d hd
  have he : (b.values.map (·.v)).flatMap datumBytes = b.values.flatMap fun d => datumBytes d.v := by
    rw [List.flatMap_map]
  rw [szBindingData, hd, Out.bind_ok, he, bindingBytes, List.length_append, List.length_append, length_leb, length_size]
  congr 1
  unfold szHandle
  omega

/-- The values as read. -/
def readValues (b : Binding) : List Datum := b.values.map fun d => readBack d.v

theorem readValues_v {b : Binding} (h : StorableBinding b) : (readValues b).map (·.v) = b.values.map (·.v) := by
  rw [readValues, List.map_map]
  exact List.map_congr_left fun d hd => storable_readBack (h.values d hd)

theorem reads_binding (little : Bool) {b : Binding} (h : StorableBinding b) :
    ReadsBack (deBindingData little) (bindingBytes b) (b.context, readValues b) := by
  refine reads_bind (decodes_handle _).1 (reads_bind (decodes_size h.count).1 ?_)
  have ht : ∀ (ds : List Datum), (∀ d ∈ ds, d.v.Writable) →
      ReadsBack ((deDatum little).times ds.length) (ds.flatMap fun d => datumBytes d.v) (ds.map fun d => readBack d.v) := by
    intro ds
    induction ds with
    | nil => intro _; exact reads_pure _
    | cons d ds ih =>
      intro hw
      rw [List.length_cons, Rd.times, List.flatMap_cons]
      exact reads_bind (decodes_datum _ _ (hw d (by simp))).1 (reads_bind_pure (ih fun x hx => hw x (by simp [hx])) rfl)
  exact reads_bind_pure (ht _ (StorableBinding_writable h)) rfl

/-- Outcome of attaching the values read. -/
def attach (jen : Bytes → BitVec 32) (little : Bool) (m : Handles) (type : BitVec 32) (b : Binding) : Out Binding := do
  let c ← m.space type b.context
  createBinding jen little c.1 c.2 (givenValues (readValues b))

theorem accepts_readBack {c : Ctx} {i : Nat} {d : Datum} (hd : StorableValue d.v) :
    Accepts c i (readBack d.v) ↔ ∀ s, d.v = .str s → ∃ h p, Holds c i h p ∧ Legal p d.v := by
  unfold Accepts
  rw [storable_readBack hd]
  cases hv : d.v <;> simp [readBack]

theorem rebinds_attach (jen : Bytes → BitVec 32) (little : Bool) {b : Binding} (h : StorableBinding b) (a : BitVec 64) {c : Ctx}
    (hc : c.params.length < 2 ^ 32) : Rebinds a c b (createBinding jen little a c (givenValues (readValues b))) := by
  obtain ⟨h1, h2, h3⟩ := Props.C58_create (jen := jen) (little := little) a c hc
  have hlen : (readValues b).length = b.values.length := by simp [readValues]
  have hget : ∀ i : Nat, (readValues b)[i]? = (b.values[i]?).map fun d : Datum => readBack d.v := by simp [readValues]
  by_cases he : b.values = []
  · have : givenValues (readValues b) = none := by simp [givenValues, readValues, he]
    rw [this, h1]
    exact .blank he rfl (by simp [noneDatum])
  · have : givenValues (readValues b) = some (readValues b) := by simp [givenValues, readValues, he]
    rw [this]
    by_cases hl : b.values.length = c.params.length
    · rcases h3 (readValues b) (by omega) with ⟨ha, b', h4, h5, h6⟩ | ⟨⟨i, d, hi, ha⟩, h4⟩
      · rw [h4]
        refine .same he hl ?_ h5 (h6.trans (readValues_v h))
        intro i d s hi hs
        exact (accepts_readBack (h.values d (List.mem_of_getElem? hi))).mp (ha i _ (by rw [hget, hi]; rfl)) s hs
      · rw [h4]
        refine .illegal he hl fun hs => ha ?_
        rw [hget, Option.map_eq_some_iff] at hi
        obtain ⟨d', hd', rfl⟩ := hi
        exact (accepts_readBack (h.values d' (List.mem_of_getElem? hd'))).mpr fun s hs' => hs i d' s hd' hs'
    · rw [h2 _ (by omega)]
      exact .count he hl

theorem attached_attach (jen : Bytes → BitVec 32) (little : Bool) {m : Handles} (hm : SmallMap m) (type : BitVec 32) {b : Binding}
    (h : StorableBinding b) : Attached m type b (attach jen little m type b) := by
  unfold attach Handles.space
  cases hg : m.get b.context with
  | none => exact .unknown hg
  | some x =>
    dsimp only
    split
    next ht => exact .found hg ht (rebinds_attach jen little h _ (hm _ _ hg))
    next ht => exact .other hg ht

theorem attached_defined {m : Handles} {type : BitVec 32} {b : Binding} {r : Out Binding} (h : Attached m type b r) : r ≠ .ub := by
  cases h with
  | unknown => simp
  | other => simp
  | found _ _ h => cases h <;> simp

/-- The handle map with one more object. -/
def addMapped (mapped : Bool) (m : Handles) (h : BitVec 64) (x : Mapped) : Out Handles := if mapped then m.add h x else .ok m

/-- Bytes of a configuration or features object. -/
def boundBytes (type : BitVec 32) (o : BindObj) : Bytes := objBytes type o.handle ++ (bindingBytes o.binding ++ blobBytes o.data)

theorem writes_bound (little : Bool) (type : BitVec 32) {o : BindObj} (h : StorableBound o) :
    WritesBytes (serBound little type o) (boundBytes type o) :=
  writes_seq (writes_obj _ _) (writes_seq (writes_binding little h.binding) (writes_userData _))

theorem length_bound (type : BitVec 32) {o : BindObj} (h : StorableBound o) : szBound type o = .ok (boundBytes type o).length := by
  rw [szBound, length_binding h.binding, Out.bind_ok, boundBytes, List.length_append, List.length_append, length_obj, length_userData]
  congr 1
  omega

theorem readsAs_bound (jen : Bytes → BitVec 32) (little : Bool) (type spaceType : BitVec 32) (mapped : Bool) (m : Handles)
    (addr : BitVec 64) {o : BindObj} (h : StorableBound o) :
    ReadsAs (deBound jen little type spaceType mapped (some m) addr) (boundBytes type o) (do
      let b ← attach jen little m spaceType o.binding
      let m' ← addMapped mapped m o.handle ⟨type, addr, Ctx.empty⟩
      .ok (m', ⟨addr, b, o.data⟩)) := by
  unfold deBound boundBytes
  refine readsAs_step (decodes_obj _ _).1 (readsAs_pass (by simp) (readsAs_step (reads_binding little h.binding) ?_))
  rw [attach, bind_bind]
  exact readsAs_lift_bind fun c _ => readsAs_lift_bind fun b _ => readsAs_lift_bind fun m' _ =>
    readsAs_ok (reads_bind_pure (reads_userData h.data) rfl)

/-! ### Evaluations -/

/-- Bytes of the features of an evaluation. -/
def featuresBytes : Option BindObj → Bytes
  | none => []
  | some f => boundBytes featuresType f

/-- Bytes of an evaluation. -/
def evalBytes (e : EvalObj) : Bytes :=
  objBytes (evalType e.features.isSome) e.handle ++ ((bindingBytes e.binding ++ (boundBytes configurationType e.configuration ++
    (featuresBytes e.features ++ lebBytes (zigzag e.result)))) ++ blobBytes e.data)

theorem writes_eval (little : Bool) {e : EvalObj} (h : StorableEval e) : WritesBytes (serEval little e) (evalBytes e) := by
  refine writes_seq (writes_obj _ _) (writes_seq (writes_seq (writes_binding little h.binding) (writes_seq
    (writes_bound little _ h.configuration) (writes_seq ?_ (writes_result _)))) (writes_userData _))
  cases hf : e.features with
  | none => exact writes_nop
  | some f => exact writes_bound little _ (h.features f hf)

theorem length_eval {e : EvalObj} (h : StorableEval e) : szEval e = .ok (evalBytes e).length := by
  have hf : szFeatures e.features = .ok (featuresBytes e.features).length := by
    cases hf : e.features with
    | none => rfl
    | some f => exact length_bound _ (h.features f hf)
  rw [szEval, length_binding h.binding, Out.bind_ok, length_bound _ h.configuration, Out.bind_ok, hf, Out.bind_ok, evalBytes]
  simp only [List.length_append, length_obj, length_userData, length_signed]
  congr 1
  unfold szResult
  omega

/-- Outcome of attaching the features read. -/
def attachFeatures (jen : Bytes → BitVec 32) (little : Bool) (m : Handles) : Option BindObj → Out (Option Binding)
  | none => .ok none
  | some f => do
    let b ← attach jen little m featuresSpaceType f.binding
    .ok (some b)

theorem attached_features (jen : Bytes → BitVec 32) (little : Bool) {m : Handles} (hm : SmallMap m) {f : Option BindObj}
    (h : ∀ o, f = some o → StorableBound o) : AttachedFeatures m f (attachFeatures jen little m f) := by
  cases f with
  | none => exact .without
  | some f =>
    have ha := attached_attach jen little hm featuresSpaceType (h f rfl).binding
    show AttachedFeatures m (some f) (attach jen little m featuresSpaceType f.binding >>= fun b => .ok (some b))
    cases hr : attach jen little m featuresSpaceType f.binding with
    | ok b => rw [hr] at ha; exact .ok ha
    | err x => rw [hr] at ha; exact .err ha
    | ub => exact absurd hr (attached_defined ha)

/-- The features at their new address. -/
def placeFeatures (addr : BitVec 64) (f : Option BindObj) (b : Option Binding) : Option BindObj :=
  match f, b with
  | some f, some b => some ⟨addr, b, f.data⟩
  | _, _ => none

/-- Outcome of reading an evaluation. -/
def evalOutcome (jen : Bytes → BitVec 32) (little mapped : Bool) (m : Handles) (p : EvalPlace) (e : EvalObj) :
    Out (Handles × EvalObj) := do
  let c ← attach jen little m configurationSpaceType e.configuration.binding
  let f ← attachFeatures jen little m e.features
  let b ← attach jen little m objectiveSpaceType e.binding
  let m' ← addMapped mapped m e.handle ⟨evalType e.features.isSome, p.eval, Ctx.empty⟩
  .ok (m', ⟨p.eval, b, ⟨p.conf, c, e.configuration.data⟩, placeFeatures p.feat e.features f, e.result, e.data⟩)

theorem readsAs_features (jen : Bytes → BitVec 32) (little : Bool) (m : Handles) (addr : BitVec 64) {f : Option BindObj}
    (h : ∀ o, f = some o → StorableBound o) :
    ReadsAs (deFeatures jen little f.isSome m addr) (featuresBytes f) (do
      let b ← attachFeatures jen little m f
      .ok (placeFeatures addr f b)) := by
  cases f with
  | none => exact readsAs_done _
  | some f =>
    have := readsAs_bound jen little featuresType featuresSpaceType false m addr (h f rfl)
    show ReadsAs (deBound jen little featuresType featuresSpaceType false (some m) addr >>= fun f => pure (some f.2))
      (boundBytes featuresType f) ((attach jen little m featuresSpaceType f.binding >>= fun b => .ok (some b)) >>= fun b =>
        Out.ok (placeFeatures addr (some f) b))
    rw [bind_bind, ← List.append_nil (boundBytes featuresType f)]
    have e : (attach jen little m featuresSpaceType f.binding >>= fun a => (Out.ok (some a) : Out (Option Binding)) >>= fun b =>
        Out.ok (placeFeatures addr (some f) b)) =
        (attach jen little m featuresSpaceType f.binding >>= fun b => addMapped false m f.handle ⟨featuresType, addr, Ctx.empty⟩ >>=
          fun m' => Out.ok (m', (⟨addr, b, f.data⟩ : BindObj))) >>= fun x => Out.ok (some x.2) := by
      cases attach jen little m featuresSpaceType f.binding <;> rfl
    rw [e]
    exact readsAs_bind this fun x _ => readsAs_done _

theorem readsAs_eval (jen : Bytes → BitVec 32) (little mapped : Bool) (m : Handles) (p : EvalPlace) {e : EvalObj} (h : StorableEval e) :
    ReadsAs (deEval jen little e.features.isSome mapped (some m) p) (evalBytes e) (evalOutcome jen little mapped m p e) := by
  unfold deEval evalBytes
  refine readsAs_step (decodes_obj _ _).1 (readsAs_pass (by simp) ?_)
  simp only [List.append_assoc]
  refine readsAs_step (reads_binding little h.binding) ?_
  have e1 : evalOutcome jen little mapped m p e = (attach jen little m configurationSpaceType e.configuration.binding >>= fun b =>
      addMapped false m e.configuration.handle ⟨configurationType, p.conf, Ctx.empty⟩ >>= fun m' =>
        Out.ok (m', (⟨p.conf, b, e.configuration.data⟩ : BindObj))) >>= fun c => 
      (attachFeatures jen little m e.features >>= fun b => Out.ok (placeFeatures p.feat e.features b)) >>= fun f =>
      attach jen little m objectiveSpaceType e.binding >>= fun b =>
      addMapped mapped m e.handle ⟨evalType e.features.isSome, p.eval, Ctx.empty⟩ >>= fun m' =>
      .ok (m', ⟨p.eval, b, c.2, f, e.result, e.data⟩) := by
    unfold evalOutcome
    cases attach jen little m configurationSpaceType e.configuration.binding with
    | ok b =>
      simp only [Out.bind_ok, addMapped]
      cases attachFeatures jen little m e.features <;> rfl
    | err => rfl
    | ub => rfl
  rw [e1]
  refine readsAs_bind (readsAs_bound jen little _ _ false m p.conf h.configuration) fun c _ => ?_
  refine readsAs_bind (readsAs_features jen little m p.feat h.features) fun f _ => ?_
  refine readsAs_step (decodes_result _).1 ?_
  rw [attach, bind_bind]
  exact readsAs_lift_bind fun c _ => readsAs_lift_bind fun b _ => readsAs_lift_bind fun m' _ =>
    readsAs_ok (reads_bind_pure (reads_userData h.data) rfl)

end CCS
