import Verif.Lemmas.Rounded
import Verif.Props.FloatUniform

/-! # C83 (continued): logarithmic uniform distributions, with the best possible `log` and `exp` -/

namespace CCS.Props

open CCS Spec IeeeLemmas CCS.Distribution

variable {σ : Type}

theorem ieee_mul_comm (a b : F64) : Ieee.mul a b = Ieee.mul b a := by
  unfold Ieee.mul
  rw [Bool.or_comm (F64.isNaN a), Bool.or_comm (Ieee.isInf a) (Ieee.isInf b), Nat.mul_comm (Ieee.mag a),
    bne_comm (a := Ieee.neg a), Bool.or_comm (Ieee.isInf a && _), Bool.and_comm (Ieee.isInf a), Bool.and_comm (Ieee.isInf b)]

/-- The draw 0 gives the lower bound. -/
theorem flat_at_zero {M : Machine σ} (hM : GslFlat M) {g : σ} (h0 : (M.uniform g).1 = F64.zero) {b : F64}
    (hb : F64.isFinite b = true) : M.flat g logSixteen b = (logSixteen, (M.uniform g).2) := by
  rw [hM.flat, h0]
  have h1 : Ieee.mul logSixteen (Ieee.sub F64.one F64.zero) = logSixteen := by decide +kernel
  have h2 : realValue (Ieee.mul b F64.zero) = some 0 := by
    rw [ieee_mul_comm]
    exact IeeeLemmas.zero_mul realValue_zero hb
  rw [h1, IeeeLemmas.add_zero (by decide +kernel) (by decide +kernel) h2]

theorem draw_log {M : Machine σ} (hM : GslFlat M) (hB : BestLibm M) {g : σ} (h0 : (M.uniform g).1 = F64.zero) {u : F64}
    (hu : F64.isFinite u = true) (hp : 0 < Ieee.signed u) :
    (M.flat g (M.log sixteen) (M.log u)).2 = (M.uniform g).2 ∧ M.exp (M.flat g (M.log sixteen) (M.log u)).1 = belowSixteen := by
  have hl := nearest_log (hB.log sixteen (by decide +kernel) (by decide +kernel))
  rw [hl, flat_at_zero hM h0 (hB.log u hu hp).1]
  refine ⟨rfl, nearest_exp (hB.exp logSixteen (by decide +kernel) ?_)⟩
  rw [toReal_log]
  norm_num

/-- **C83** fails for logarithmic distributions, whatever the bounds above: the exponential of the logarithm of the lower
bound can be below it.  With the nearest doubles for `log` and `exp`, the sample of the doubles from 16 on for a draw of 0
is the double before 16. -/
theorem C83_log_float_lower {M : Machine σ} (hM : GslFlat M) (hB : BestLibm M) {g : σ}
    (h0 : (M.uniform g).1 = F64.zero) {upper : F64} (hu : F64.isFinite upper = true) {d : Sampler σ}
    (hd : createUniform M .float sixteen upper true 0#64 = .ok d) :
    d.bounds = [⟨.float, sixteen, upper, 1#32, 0#32⟩] ∧
    Layouts d 1 g (some (.ok ([[belowSixteen]], (M.uniform g).2))) ∧
    ¬ Mem ⟨.float, sixteen, upper, 1#32, 0#32⟩ belowSixteen := by
  unfold createUniform at hd
  obtain ⟨_, h1, hd⟩ := bind_ok_split hd
  obtain ⟨u, h2, hd⟩ := bind_ok_split hd
  have hle : F64.le upper sixteen = false := by
    cases hc : F64.le upper sixteen with
    | false => rfl
    | true =>
      unfold Uniform.check refute at h1
      simp only [hc, true_or, if_true] at h1
      cases h1
  have hq : F64.feq 0#64 F64.zero = true := by decide
  simp only [Uniform.fill, hq, Bool.not_true, if_true, Out.ok.injEq] at h2
  obtain rfl := Out.ok.inj hd
  have hp : 0 < Ieee.signed upper := by
    have := not_le_signed (a := sixteen) (by decide +kernel) hu hle
    have h16 : 0 < Ieee.signed sixteen := by decide +kernel
    omega
  obtain ⟨e1, e2⟩ := draw_log hM hB h0 hu hp
  have hbody : ∀ n addr, uniformBody M u n addr =
      .seq (.loop (fun i => .put (addr i) (u.rawFloat M)) n 0)
        (.seq (.loop (fun i => .update (addr i) fun v => .ok (M.exp v)) n 0) .skip) := by
    intro n addr
    subst h2
    simp [uniformBody]
  have hskip : ∀ a : Act σ, a.seq .skip = a := by
    intro a
    funext s
    unfold Act.seq Act.skip
    rcases a s with _ | _ | _ | _ <;> rfl
  have hgood := good_column (V := fun n g => thenMap (drawN (u.rawFloat M) n g) (fun v => .ok (M.exp v)))
    (fun n addr hi g => by rw [hbody, hskip]; exact fills1_update hi (fills1_put addr _ n g hi) _) (fun g => rfl)
    [.float] [u.bounds] (uniform_samples M u) (uniform_strided M u)
  have hlay := layouts_of_good hgood 1 g
  have hraw : u.rawFloat M g = some (.ok (M.flat g (M.log sixteen) (M.log upper))) := by
    subst h2
    rfl
  simp only [drawN, hraw, rbind, thenMap, mapOut, e2, single] at hlay
  refine ⟨by subst h2; rfl, ?_, ?_⟩
  · rw [← e1]
    exact hlay
  · rintro ⟨l, x, u', h1, h2, h3, h4, h5⟩
    have a1 : realValue sixteen = some (Ieee.signed sixteen) := realValue_signed (by decide +kernel)
    have a2 : realValue belowSixteen = some (Ieee.signed belowSixteen) := realValue_signed (by decide +kernel)
    have a3 : Ieee.signed belowSixteen < Ieee.signed sixteen := by decide +kernel
    have b1 : l = Ieee.signed sixteen := Option.some.inj (h1.symm.trans a1)
    have b2 : x = Ieee.signed belowSixteen := Option.some.inj (h2.symm.trans a2)
    rcases h4 with h4 | h4 <;> omega

/-- `floor` of the double before 16. -/
theorem floor_below {M : Machine σ} (hM : GslFlat M) (hB : BestLibm M) : M.toInt (M.floor belowSixteen) = some 15#64 := by
  have a2 : realValue belowSixteen = some (Ieee.signed belowSixteen) := realValue_signed (by decide +kernel)
  obtain ⟨-, k, h2, h3, h4⟩ := hM.floor belowSixteen _ (by decide +kernel) a2 (by decide +kernel)
  have h5 : (15 * 2 ^ 1074 : Int) ≤ Ieee.signed belowSixteen := by decide +kernel
  have h6 : Ieee.signed belowSixteen < 16 * 2 ^ 1074 := by decide +kernel
  have hk : k = 15 := by
    have key : ∀ c v : Int, 0 < c → (k : Int) * c ≤ v → v < k * c + c → 15 * c ≤ v → v < 16 * c → k = 15 := by
      intro c v hc p1 p2 p3 p4
      have q1 : (k : Int) < 16 := by
        rcases Int.lt_or_le (k : Int) 16 with h | h
        · exact h
        · have := Int.mul_le_mul_of_nonneg_right h (Int.le_of_lt hc)
          omega
      have q2 : 15 < (k : Int) + 1 := by
        rcases Int.lt_or_le 15 ((k : Int) + 1) with h | h
        · exact h
        · have := Int.mul_le_mul_of_nonneg_right h (Int.le_of_lt hc)
          rw [Int.add_mul] at this
          omega
      omega
    exact key _ _ (Int.pow_pos (by decide)) h3 h4 h5 h6
  subst hk
  exact hB.toInt _ 15 h2 (by decide)

/-- **C83** fails in the same way for logarithmic distributions of integers: from 16 on, the value 15 is sampled. -/
theorem C83_log_int_lower {M : Machine σ} (hM : GslFlat M) (hB : BestLibm M) {g : σ}
    (h0 : (M.uniform g).1 = F64.zero) {d : Sampler σ}
    (hd : createUniform M .int 16#64 1024#64 true 0#64 = .ok d) :
    d.bounds = [⟨.int, 16#64, 1024#64, 1#32, 0#32⟩] ∧
    Layouts d 1 g (some (.ok ([[15#64]], (M.uniform g).2))) ∧ ¬ Mem ⟨.int, 16#64, 1024#64, 1#32, 0#32⟩ 15#64 := by
  unfold createUniform at hd
  obtain ⟨_, h1, hd⟩ := bind_ok_split hd
  obtain ⟨u, h2, hd⟩ := bind_ok_split hd
  simp only [Uniform.fill, if_true, Out.ok.injEq] at h2
  obtain rfl := Out.ok.inj hd
  have h16 : F64.ofInt 16#64 = sixteen := by decide +kernel
  obtain ⟨e1, e2⟩ := draw_log hM hB h0 (u := F64.ofInt 1024#64) (by decide +kernel) (by decide +kernel)
  have hbody : ∀ n addr, uniformBody M u n addr =
      .seq (.loop (fun i => .put (addr i) (u.rawLogInt M)) n 0) .skip := by
    intro n addr
    subst h2
    simp [uniformBody]
  have hskip : ∀ a : Act σ, a.seq .skip = a := by
    intro a
    funext s
    unfold Act.seq Act.skip
    rcases a s with _ | _ | _ | _ <;> rfl
  have hgood := good_column (V := fun n g => drawN (u.rawLogInt M) n g)
    (fun n addr hi g => by rw [hbody, hskip]; exact fills1_put addr _ n g hi) (fun g => rfl)
    [.int] [u.bounds] (uniform_samples M u) (uniform_strided M u)
  have hlay := layouts_of_good hgood 1 g
  have hraw : u.rawLogInt M g = some (.ok (15#64, (M.uniform g).2)) := by
    subst h2
    simp only [Uniform.rawLogInt, h16, e1, e2, Machine.cast, floor_below hM hB]
  simp only [drawN, hraw, rbind, single] at hlay
  refine ⟨by subst h2; rfl, hlay, ?_⟩
  rintro ⟨l, x, u', h1, h2, h3, h4, h5⟩
  have b1 : l = 16 := (Option.some.inj h1).symm
  have b2 : x = 15 := (Option.some.inj h2).symm
  rcases h4 with h4 | h4 <;> omega

theorem nearest_exists (r : ℝ) : ∃ x, NearestDouble r x := by
  have : Finite {y : F64 // F64.isFinite y = true} :=
    Finite.of_injective (fun y => BitVec.toFin y.1) fun a b h => Subtype.ext (BitVec.eq_of_toFin_eq h)
  have : Nonempty {y : F64 // F64.isFinite y = true} := ⟨⟨F64.zero, by decide +kernel⟩⟩
  obtain ⟨x, hx⟩ := Finite.exists_min fun y : {y : F64 // F64.isFinite y = true} => |toReal y.1 - r|
  exact ⟨x.1, x.2, fun y hy => hx ⟨y, hy⟩⟩

/-- There are machines with this arithmetic whose generator draws 0, and the distributions are made on all of them. -/
example : ∃ M : Machine Nat, GslFlat M ∧ BestLibm M ∧ (M.uniform 0).1 = F64.zero ∧
    (∃ d, createUniform M .float sixteen 0x4090000000000000#64 true 0#64 = .ok d) ∧
    ∃ d, createUniform M .int 16#64 1024#64 true 0#64 = .ok d := by
  classical
  let M : Machine Nat :=
    { exMachine with
      floor := Ieee.floorOf
      log := fun x => Classical.choose (nearest_exists (Real.log (toReal x)))
      exp := fun x => Classical.choose (nearest_exists (Real.exp (toReal x)))
      toInt := fun x =>
        if h : ∃ k : Nat, realValue x = some (k * 2 ^ 1074 : Int) then some (BitVec.ofNat 64 (Classical.choose h)) else none
      uniform := fun g => (F64.zero, g + 1)
      flat := fun g a b => (Ieee.add (Ieee.mul a (Ieee.sub F64.one F64.zero)) (Ieee.mul b F64.zero), g + 1) }
  refine ⟨M, ⟨rfl, fun g => ⟨0, realValue_zero, Int.le_refl 0, by decide +kernel⟩, fun _ _ _ => rfl,
    fun _ _ h1 h2 h3 => floorOf_spec h1 h2 h3⟩, ⟨fun x _ _ => Classical.choose_spec (nearest_exists _),
    fun x _ _ => Classical.choose_spec (nearest_exists _), ?_⟩, rfl, ?_, ⟨_, rfl⟩⟩
  rotate_left
  · have hc : ∀ u, Uniform.check exMachine .float sixteen 0x4090000000000000#64 true 0#64 = .ok u →
        Uniform.check M .float sixteen 0x4090000000000000#64 true 0#64 = .ok u := fun u h => h
    unfold createUniform
    rw [hc () (by decide +kernel)]
    exact ⟨_, rfl⟩
  intro x k hk _
  have h : ∃ k : Nat, realValue x = some (k * 2 ^ 1074 : Int) := ⟨k, hk⟩
  show (if h : ∃ k : Nat, realValue x = some (k * 2 ^ 1074 : Int) then some (BitVec.ofNat 64 (Classical.choose h)) else none) = _
  rw [dif_pos h]
  have hc := Option.some.inj ((Classical.choose_spec h).symm.trans hk)
  have := Int.eq_of_mul_eq_mul_right (Int.ne_of_gt (Int.pow_pos (by decide))) hc
  rw [Int.natCast_inj.mp this]

end CCS.Props
