import Verif.Lemmas.Depth
import Verif.Lemmas.Grow
import Verif.Props.Channel

/-!
# C08, C09: messages of any kind cut short, and nested ones
-/

namespace CCS.Props

open CCS CCS.Spec

/-- **C08** What follows an object is never looked at: bytes from which an object is read give that object when others follow, and leave
those. -/
theorem C08_what_follows_is_not_read {σ τ : Type} (D : Desk σ τ) (little : Bool) (bs more : Bytes) (x : AnyObj τ) (rest : Bytes)
    (h : deMemory little (deAny D) bs = .ok (x, rest)) : deMemory little (deAny D) (bs ++ more) = .ok (x, rest ++ more) :=
  (Grows.memory little (Grows.any D)).more bs more x rest h

/-- **C08** An object of any kind cannot be read from part of the bytes it was read from: when reading uses all but `rest` of some bytes,
whatever their origin, fewer bytes than those used give NOT_ENOUGH_DATA, or are read past their end (`C08_userData_truncation_undefined`);
they are not accepted, and no other error is reported. -/
theorem C08_no_part_is_accepted {σ τ : Type} (D : Desk σ τ) (little : Bool) (bs : Bytes) (x : AnyObj τ) (rest : Bytes)
    (h : deMemory little (deAny D) bs = .ok (x, rest)) (n : Nat) (hn : n + rest.length < bs.length) :
    deMemory little (deAny D) (bs.take n) = .err .notEnoughData ∨ deMemory little (deAny D) (bs.take n) = .ub := by
  rw [← List.take_append_drop n bs] at h
  rcases (Grows.memory little (Grows.any D)).less _ _ _ _ h with ⟨r, -, hr⟩ | hm
  · have h1 := congrArg List.length hr
    rw [List.length_append, List.length_drop] at h1
    omega
  · exact hm

/-- **C08** At the level of the calls: a message of any kind, in memory, that was written whole and is read back, cannot be read once cut, at
whatever place: the answer is NOT_ENOUGH_DATA, where it is defined. -/
theorem C08_cut_messages {σ τ V : Type} (rd : DeOpts V → Desk σ τ) (options : List (DeOption V)) (hp : PlainReading options) (k : Kind)
    (obj : Wr) (bs : Bytes) (x : AnyObj τ) (hw : WritesBytes obj bs) (hr : ∀ opts, ReadsBack (k.reader (rd opts)) bs x)
    (hostW hostR : Bool) (cap : Nat) (hc : szHeader + bs.length ≤ cap) :
    ∃ out, serMemory hostW obj cap = .ok out ∧
      takeMemory hostR (fun opts => deAny (rd opts)) true (some out) options = .ok x ∧
      ∀ n, n < out.length →
        takeMemory hostR (fun opts => deAny (rd opts)) true (some (out.take n)) options = .err .notEnoughData ∨
        takeMemory hostR (fun opts => deAny (rd opts)) true (some (out.take n)) options = .ub := by
  obtain ⟨opts, hopts⟩ := plain_reading hp
  obtain ⟨out, h1, h2, -⟩ := C109_round_trips (rd opts) k obj bs x hw (hr opts) hostW hostR cap hc
  have h3 := h2 []
  rw [List.append_nil] at h3
  refine ⟨out, h1, ?_, fun n hn => ?_⟩
  · simp [takeMemory, refute, hopts, h3]
  · rcases C08_no_part_is_accepted (rd opts) hostR out x [] h3 n (by simpa using hn) with h | h
    · left; simp [takeMemory, refute, hopts, h]
    · right; simp [takeMemory, refute, hopts, h]

/-- **C08** Two processes that read the same bytes, one of them having received fewer of them, never get different objects: whatever the
part accepted, the whole gives the same object. -/
theorem C08_same_object {σ τ V : Type} (rd : DeOpts V → Desk σ τ) (options : List (DeOption V)) (little : Bool) (bs more : Bytes)
    (x : AnyObj τ) (h : takeMemory little (fun opts => deAny (rd opts)) true (some bs) options = .ok x) :
    takeMemory little (fun opts => deAny (rd opts)) true (some (bs ++ more)) options = .ok x := by
  cases ho : deOptions .memory options {} with
  | err e => simp [takeMemory, refute, ho] at h
  | ub => simp [takeMemory, refute, ho] at h
  | ok opts =>
    cases hm : deMemory little (deAny (rd opts)) bs with
    | err e => simp [takeMemory, refute, ho, hm] at h
    | ub => simp [takeMemory, refute, ho, hm] at h
    | ok r =>
      have hx : r.1 = x := by simpa [takeMemory, refute, ho, hm] using h
      have h2 := C08_what_follows_is_not_read (rd opts) little bs more r.1 r.2 hm
      simp [takeMemory, refute, ho, h2, hx]

/-- The hypotheses are met: a generator, read in any process with these types of generators, from bytes and no more. -/
example {σ τ : Type} (D : Desk σ τ) (hl : D.H.little = true) (hg : D.H.gens = exGens) (n : Nat)
    (hn : n < (message (rngBytes true 7#64 exGen)).length) :
    deMemory true (deAny D) ((message (rngBytes true 7#64 exGen)).take n) = .err .notEnoughData ∨
    deMemory true (deAny D) ((message (rngBytes true 7#64 exGen)).take n) = .ub := by
  have h : deAny D (rngBytes true 7#64 exGen) = .ok (.rng 7#64 exGen, []) := by
    refine (C109_reads_what_the_kind_reads D .rng _ _ _ ?_).1
    show (deRng D.H.little D.H.gens >>= fun r => pure (AnyObj.rng r.1 r.2) : Rd (AnyObj τ)) _ = _
    have h : deRng true exGens (rngBytes true 7#64 exGen) = .ok ((7#64, exGen), []) := by decide +kernel
    rw [hl, hg, Rd.bind_eq, h]; rfl
  refine C08_no_part_is_accepted D true _ (.rng 7#64 exGen) [] ?_ n (by simpa using hn)
  show (deHeader true >>= fun _ => deAny D) _ = _
  rw [Rd.bind_eq]
  unfold message
  rw [(decodes_header true _).1, Out.bind_ok]
  exact h

/-! ## C09: nesting -/

/-- **C09** The readers of nested objects, which the model stops at a depth, are not stopped by it: any depth larger than the number of bytes
gives the same outcome, for expressions, distributions and trees, whatever the bytes.  Each level uses up at least one byte. -/
theorem C09_depth_is_no_limit {σ : Type} (M : Machine σ) (ops : FloatOps) (little : Bool) (map : HandleMap) (g : Grove) (bs : Bytes) (depth : Nat)
    (h : bs.length < depth) :
    deExprFuel little map depth bs = deExpr little map bs ∧
    DistObj.readFuel M little depth bs = DistObj.read M little bs ∧
    Forest.deTreeFuel ops little depth g bs = Forest.deTree ops little g bs :=
  ⟨deExpr_fuel little map depth bs h, DistObj.read_fuel M little depth bs h, Forest.deTree_fuel ops little g depth bs h⟩

/-- With less, it is: an expression inside of another takes two levels. -/
example : deExprFuel true none 1 [3#8, 0#8, 6#8, 1#8, 3#8, 0#8] = .ub ∧
    deExpr true none [3#8, 0#8, 6#8, 1#8, 3#8, 0#8] = .err .notEnoughData := ⟨rfl, rfl⟩

end CCS.Props
