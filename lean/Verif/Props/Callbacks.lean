/-
C133, C134: callbacks of tuners written in Python or Ruby.
-/
import Verif.Spec.Callbacks
import Verif.Props.UserTuner

namespace CCS.Props
open CCS CCS.Py CCS.Py.Spec

/-! ### Arrays -/

private theorem hostBytes_eight (little : Bool) (h : BitVec 64) : (hostBytes little 8 h).length = 8 := by
  cases little <;> simp [hostBytes, leBytes]

private theorem poke_place {bs v bs' : Bytes} {i : Nat} (hv : v.length = 8) (h : poke bs (8 * i) v = some bs') :
    bs'.length = bs.length ∧ ∀ j, place bs' j = if j = i then v else place bs j := by
  unfold poke at h
  split at h
  case isFalse => cases h
  rename_i hb
  cases h
  have hl : (bs.take (8 * i)).length = 8 * i := by rw [List.length_take]; omega
  refine ⟨by simp; omega, fun j => ?_⟩
  unfold place
  split
  · subst j
    rw [List.append_assoc, List.drop_append_of_le_length (by omega), List.drop_of_length_le (by omega), List.nil_append,
      List.take_append_of_le_length (by omega), List.take_of_length_le (by omega)]
  · rename_i hj
    apply List.ext_getElem?
    intro k
    by_cases hk : k < 8
    · rw [List.getElem?_take_of_lt hk, List.getElem?_take_of_lt hk, List.getElem?_drop, List.getElem?_drop]
      rcases Nat.lt_or_gt_of_ne hj with hj | hj
      · rw [List.append_assoc, List.getElem?_append_left (by omega), List.getElem?_take_of_lt (by omega)]
      · rw [List.getElem?_append_right (by simp; omega), List.getElem?_drop]
        congr 1
        simp
        omega
    · rw [List.getElem?_eq_none (by simp; omega), List.getElem?_eq_none (by simp; omega)]

private theorem poke_fits {bs v : Bytes} {i num : Nat} (hb : bs.length = 8 * num) (hv : v.length = 8) (hi : i < num) :
    ∃ bs', poke bs (8 * i) v = some bs' := by
  unfold poke
  rw [if_pos (by omega)]
  exact ⟨_, rfl⟩

private theorem store_places (little take : Bool) : ∀ (hs : List (BitVec 64)) {i num : Nat} {bs : Bytes} {taken : List (BitVec 64)},
    bs.length = 8 * num → i + hs.length ≤ num → ∃ bs', storeItems little take i (hs.map some) bs taken =
      some (bs', taken ++ (if take then hs else []), none) ∧ bs'.length = 8 * num ∧
      ∀ j, place bs' j = if i ≤ j ∧ j < i + hs.length then hostBytes little 8 (hs.getD (j - i) 0#64) else place bs j
  | [], i, num, bs, taken, hb, _ => ⟨bs, by cases take <;> simp [storeItems], hb, fun j => by
      rw [if_neg]
      simp only [List.length_nil]
      omega⟩
  | h :: hs, i, num, bs, taken, hb, hi => by
    simp only [List.length_cons] at hi
    obtain ⟨b1, h1⟩ := poke_fits hb (hostBytes_eight little h) (show i < num by omega)
    obtain ⟨l1, p1⟩ := poke_place (hostBytes_eight little h) h1
    obtain ⟨b2, h2, l2, p2⟩ := store_places little take hs (i := i + 1) (num := num) (bs := b1)
      (taken := if take then taken ++ [h] else taken) (by omega) (by omega)
    refine ⟨b2, ?_, l2, fun j => ?_⟩
    · rw [List.map_cons, storeItems, h1]
      simp only [h2]
      cases take <;> simp
    · rw [p2 j, p1 j]
      simp only [List.length_cons]
      by_cases hj : j = i
      · subst hj
        rw [if_neg (by omega), if_pos rfl, if_pos (by omega), Nat.sub_self]
        rfl
      · rw [if_neg hj]
        by_cases hk : i + 1 ≤ j ∧ j < i + 1 + hs.length
        · rw [if_pos hk, if_pos (by omega)]
          obtain ⟨m, rfl⟩ := Nat.exists_eq_add_of_le hk.1
          rw [show i + 1 + m - i = m + 1 by omega, Nat.add_sub_cancel_left, List.getD_cons_succ]
        · rw [if_neg hk, if_neg (by omega)]

private theorem pad_places : ∀ (n : Nat) {i num : Nat} {bs : Bytes}, bs.length = 8 * num → i + n ≤ num →
    ∃ bs', padNulls 8 i n bs = some bs' ∧ bs'.length = 8 * num ∧
      ∀ j, place bs' j = if i ≤ j ∧ j < i + n then List.replicate 8 0#8 else place bs j
  | 0, i, num, bs, hb, _ => ⟨bs, rfl, hb, fun j => by rw [if_neg]; omega⟩
  | n + 1, i, num, bs, hb, hi => by
    obtain ⟨b1, h1⟩ := poke_fits hb (List.length_replicate (n := 8) (a := 0#8)) (show i < num by omega)
    obtain ⟨l1, p1⟩ := poke_place (List.length_replicate (n := 8) (a := 0#8)) h1
    obtain ⟨b2, h2, l2, p2⟩ := pad_places n (i := i + 1) (num := num) (bs := b1) (by omega) (by omega)
    refine ⟨b2, by rw [padNulls, h1]; exact h2, l2, fun j => ?_⟩
    rw [p2 j, p1 j]
    by_cases hj : j = i
    · subst hj
      rw [if_neg (by omega), if_pos rfl, if_pos (by omega)]
    · rw [if_neg hj]
      by_cases hk : i + 1 ≤ j ∧ j < i + 1 + n
      · rw [if_pos hk, if_pos (by omega)]
      · rw [if_neg hk, if_neg (by omega)]

private theorem null_bytes (little : Bool) : hostBytes little 8 (0#64) = List.replicate 8 0#8 := by
  cases little <;> decide

private theorem fill_answered {little take count : Bool} {from_ : List Item → Nat → Nat} {num : Nat} {array : Option Bytes} {hs : List (BitVec 64)}
    (ha : ∀ bs, array = some bs → bs.length = 8 * num) (hf : from_ (hs.map some) hs.length = hs.length) :
    ∃ e, fillWith little take 8 from_ num array count (.gives (hs.map some, hs.length)) = some e ∧ Answered little take num array count hs e := by
  cases array with
  | none => exact ⟨_, rfl, rfl⟩
  | some bs =>
    have hb := ha bs rfl
    unfold fillWith Answered
    simp only
    by_cases hn : hs.length ≤ num
    · simp only [if_neg (show ¬ num < hs.length by omega), if_pos hn]
      obtain ⟨b1, h1, l1, p1⟩ := store_places little take hs (i := 0) (taken := []) hb (by omega)
      obtain ⟨b2, h2, l2, p2⟩ := pad_places (num - hs.length) (i := hs.length) l1 (by omega)
      rw [h1, hf]
      simp only [h2]
      refine ⟨_, rfl, b2, ⟨l2, fun i hi => ?_⟩, ?_⟩
      · rw [p2 i, p1 i]
        by_cases hk : i < hs.length
        · rw [if_neg (by omega), if_pos (by omega), Nat.sub_zero]
        · rw [if_pos (by omega), show hs.getD i 0#64 = 0#64 by rw [List.getD_eq_getElem?_getD, List.getElem?_eq_none (by omega)]; rfl, null_bytes]
      · rw [List.nil_append]
    · simp only [if_pos (show num < hs.length by omega), if_neg hn]
      exact ⟨_, rfl, rfl⟩

/-- **C133** (partial) The configurations a Python callback gives when asked reach the library as documented, for every size of array.
Missing: a callback whose count is not that of its configurations, see `C133_written_outside`, or one that fails on the way, see
`C133_references_lost`. -/
theorem C133_python_partial (little count : Bool) {num : Nat} {array : Option Bytes} (ha : ∀ bs, array = some bs → bs.length = 8 * num)
    (hs : List (BitVec 64)) :
    ∃ e, pyAsk little num array count (.gives (hs.map some, hs.length)) = some e ∧ Answered little true num array count hs e :=
  fill_answered ha (by simp)

/-- **C133** Histories and optima given by callbacks in either language reach the library as documented. -/
theorem C133_evaluations (little count : Bool) {num : Nat} {array : Option Bytes} (ha : ∀ bs, array = some bs → bs.length = 8 * num)
    (hs : List (BitVec 64)) :
    ∃ e, listEvaluations little num array count (.gives (hs.map some)) = some e ∧ Answered little false num array count hs e := by
  have := fill_answered (little := little) (take := false) (count := count) (from_ := fun items _ => items.length) ha (hs := hs) (by simp)
  simpa [listEvaluations, counted] using this

/-- **C133** (partial) So do the configurations of a Ruby callback that gives as many as asked for, or none into an array of one.
Missing: what gives fewer, see `C133_ruby_padding`. -/
theorem C133_ruby_partial (little count : Bool) {num : Nat} {array : Option Bytes} (ha : ∀ bs, array = some bs → bs.length = 8 * num)
    (hs : List (BitVec 64)) (h : array = none ∨ num ≤ hs.length ∨ num = 1) :
    ∃ e, rbAsk little num array count (.gives (hs.map some, hs.length)) = some e ∧ Answered little true num array count hs e := by
  have key := fill_answered (little := little) (take := true) (count := count) (from_ := fun _ ret => ret) ha (hs := hs) rfl
  have same : rbAsk little num array count (.gives (hs.map some, hs.length)) =
      fillWith little true 8 (fun _ ret => ret) num array count (.gives (hs.map some, hs.length)) := by
    cases array with
    | none => rfl
    | some bs =>
      have pads : ∀ b, padNulls 9 hs.length (num - hs.length) b = padNulls 8 hs.length (num - hs.length) b := by
        intro b
        rcases h with h | h | h
        · cases h
        · rw [Nat.sub_eq_zero_of_le h]
          rfl
        · subst h
          cases hs with
          | nil => rfl
          | cons x xs => rw [Nat.sub_eq_zero_of_le (by simp)]; rfl
      simp only [rbAsk, fillWith, pads]
  rw [same]
  exact key

example : pyAsk true 3 (some (List.replicate 24 7#8)) true (.gives ([some 5#64, some 6#64], 2)) =
    some ⟨none, some ([5#8] ++ List.replicate 7 0#8 ++ [6#8] ++ List.replicate 15 0#8), some 2, [5#64, 6#64]⟩ := by decide

/-- **C133** An exception of a callback that raises is what the library is told; nothing is written. -/
theorem C133_raised (little count : Bool) (num : Nat) (array : Option Bytes) (e : Err) :
    pyAsk little num array count (.raises e) = some ⟨some e, array, none, []⟩ ∧
    rbAsk little num array count (.raises e) = some ⟨some e, array, none, []⟩ ∧
    listEvaluations little num array count (.raises e) = some ⟨some e, array, none, []⟩ := ⟨rfl, rfl, rfl⟩

/-- **C133** fails: a callback that gives more configurations than it was asked for, with a count that is within bounds, makes the wrapper
of either language write past the end of the array. -/
theorem C133_written_outside (little count : Bool) {num ret : Nat} {bs : Bytes} (hb : bs.length = 8 * num) {hs : List (BitVec 64)}
    (hr : ret ≤ num) (hl : num < hs.length) :
    pyAsk little num (some bs) count (.gives (hs.map some, ret)) = none ∧
    rbAsk little num (some bs) count (.gives (hs.map some, ret)) = none := by
  have key : ∀ (hs : List (BitVec 64)) (i : Nat) (b : Bytes) (taken : List (BitVec 64)), b.length = 8 * num → i ≤ num → num < i + hs.length →
      storeItems little true i (hs.map some) b taken = none := by
    intro hs
    induction hs with
    | nil => intro i b taken _ h1 h2; simp at h2; omega
    | cons h hs ih =>
      intro i b taken hb h1 h2
      simp only [List.length_cons] at h2
      rw [List.map_cons, storeItems]
      by_cases hi : i < num
      · obtain ⟨b1, e1⟩ := poke_fits hb (hostBytes_eight little h) hi
        rw [e1]
        exact ih (i + 1) b1 _ (by rw [(poke_place (hostBytes_eight little h) e1).1, hb]) (by omega) (by omega)
      · have : poke b (8 * i) (hostBytes little 8 h) = none := by
          unfold poke
          rw [if_neg (by rw [hostBytes_eight]; omega)]
        rw [this]
  have h0 := key hs 0 bs [] hb (by omega) (by omega)
  constructor
  · simp only [pyAsk, fillWith, if_neg (show ¬ num < ret by omega), h0]
  · simp only [rbAsk, fillWith, if_neg (show ¬ num < ret by omega), h0]

/-- **C133** fails in Ruby: a callback that gives fewer configurations than asked for, as it may, makes the wrapper write past the end of
the array, for every array of two places or more. -/
theorem C133_ruby_padding (little count : Bool) {num : Nat} {bs : Bytes} (hb : bs.length = 8 * num) {hs : List (BitVec 64)} (hn : 2 ≤ num)
    (hl : hs.length < num) : rbAsk little num (some bs) count (.gives (hs.map some, hs.length)) = none := by
  have key : ∀ (n i : Nat) (b : Bytes), b.length = 8 * num → 0 < n → i + n = num → padNulls 9 i n b = none := by
    intro n
    induction n with
    | zero => intro i b _ h; omega
    | succ n ih =>
      intro i b hb _ hi
      rw [padNulls]
      by_cases hp : 9 * i + 8 ≤ b.length
      · have e1 : poke b (9 * i) (List.replicate 8 0#8) =
            some (b.take (9 * i) ++ List.replicate 8 0#8 ++ b.drop (9 * i + 8)) := by
          unfold poke
          rw [List.length_replicate, if_pos hp]
        rw [e1]
        refine ih (i + 1) _ (by simp; omega) (by omega) (by omega)
      · have e1 : poke b (9 * i) (List.replicate 8 0#8) = none := by
          unfold poke
          rw [List.length_replicate, if_neg hp]
        rw [e1]
  obtain ⟨b1, h1, l1, -⟩ := store_places little true hs (i := 0) (taken := []) hb (by omega)
  simp only [rbAsk, fillWith, if_neg (show ¬ num < hs.length by omega), h1, key (num - hs.length) hs.length b1 l1 (by omega) (by omega)]

/-- **C133** fails: when an element given is not a configuration, the call fails and the references taken for those before it are never
given back. -/
theorem C133_references_lost (little count : Bool) {num ret : Nat} {bs : Bytes} (hb : bs.length = 8 * num) {hs : List (BitVec 64)}
    {rest : List Item} (hr : ret ≤ num) (hl : hs.length ≤ num) :
    ∃ bs', pyAsk little num (some bs) count (.gives (hs.map some ++ none :: rest, ret)) = some ⟨some .external, some bs', none, hs⟩ ∧
      rbAsk little num (some bs) count (.gives (hs.map some ++ none :: rest, ret)) = some ⟨some .external, some bs', none, hs⟩ := by
  have key : ∀ (hs : List (BitVec 64)) (i : Nat) (b : Bytes) (taken : List (BitVec 64)), b.length = 8 * num → i + hs.length ≤ num →
      ∃ b', storeItems little true i (hs.map some ++ none :: rest) b taken = some (b', taken ++ hs, some .external) := by
    intro hs
    induction hs with
    | nil => intro i b taken _ _; exact ⟨b, by simp [storeItems]⟩
    | cons h hs ih =>
      intro i b taken hb h2
      simp only [List.length_cons] at h2
      obtain ⟨b1, e1⟩ := poke_fits hb (hostBytes_eight little h) (show i < num by omega)
      obtain ⟨b2, e2⟩ := ih (i + 1) b1 (taken ++ [h]) (by rw [(poke_place (hostBytes_eight little h) e1).1, hb]) (by omega)
      refine ⟨b2, ?_⟩
      rw [List.map_cons, List.cons_append, storeItems, e1]
      simp only [if_true, e2]
      simp
  obtain ⟨b', h0⟩ := key hs 0 bs [] hb (by omega)
  rw [List.nil_append] at h0
  refine ⟨b', ?_, ?_⟩
  · simp only [pyAsk, fillWith, if_neg (show ¬ num < ret by omega), h0]
  · simp only [rbAsk, fillWith, if_neg (show ¬ num < ret by omega), h0]

example : pyAsk true 1 (some (List.replicate 8 0#8)) true (.gives ([some 5#64, some 6#64], 1)) = none ∧
    rbAsk true 2 (some (List.replicate 16 0#8)) true (.gives ([some 5#64], 1)) = none ∧
    pyAsk true 2 (some (List.replicate 16 0#8)) true (.gives ([some 5#64, none], 2)) =
      some ⟨some .external, some ([5#8] ++ List.replicate 15 0#8), none, [5#64]⟩ := by decide

/-! ### The state of the user -/

open CCS.Spec

variable {τ : Type}

/-- **C134** (partial) What a Python program gives as its state is what is written: a vector whose callback is the wrapper of a function that gives
the bytes `st` shows them to the library (see C100 and C101 for the message).
Missing: reading it back, see `C134_never_read`, and Ruby, see `C134_ruby_never_written`. -/
theorem C134_python_state_partial {v : UserVector τ} {serialize : Bool → τ → τ × Reply Bytes} (hv : v.save = some (pySave serialize)) {s : τ}
    {hist opt : List (BitVec 64)} {st st0 : Bytes} (hs : ∀ b, serialize b s = (s, .gives st))
    (hd : Displays { v with save := none } s hist opt st0) : Displays v s hist opt st where
  historyCount := hd.historyCount
  history := hd.history
  optimaCount := hd.optimaCount
  optima := hd.optima
  stateless h := by rw [hv] at h; cases h
  stateSize g hg := by
    rw [hv] at hg
    cases hg
    simp [pySave, hs]
  state g hg _ := by
    rw [hv] at hg
    cases hg
    simp [pySave, hs]
  notNull := hd.notNull

/-- **C134** Whatever a Python program gives as its state, the wrapper writes it whole and within the buffer of `num` bytes, or refuses; it refuses exactly
when the state does not fit. -/
theorem C134_python_buffer {serialize : Bool → τ → τ × Reply Bytes} {num : Nat} {count : Bool} {s s' : τ} {st : Bytes}
    (hs : serialize (decide (num = 0)) s = (s', .gives st)) :
    (st.length ≤ num → pySave serialize num true count s = (s', .ok (some st, if count then some st.length else none))) ∧
    (num < st.length → pySave serialize num true count s = (s', .err .invalidValue)) := by
  have hs' : serialize (num == 0) s = (s', .gives st) := hs
  constructor
  · intro h
    have : ¬ num < st.length := by omega
    simp [pySave, hs', this]
  · intro h
    simp [pySave, hs', h]

example : pySave (fun _ (s : Nat) => (s + 1, .gives [1#8, 2#8])) 2 true true 0 = (1, .ok (some [1#8, 2#8], some 2)) ∧
    pySave (fun _ (s : Nat) => (s + 1, .gives [1#8, 2#8])) 1 true true 0 = (1, .err .invalidValue) := by decide

/-- **C134** fails: no message, whatever it holds, gives a user defined tuner to a program that reads it with a callback for its state, in either
language; the callback of the program is not even called. -/
theorem C134_never_read {σ : Type} (H : Host σ) (withFeatures : Bool) (P : Places) {v : UserVector τ} (pointer : BitVec 64) (s : τ)
    (hv : (∃ f, v.restore = some (pyRestore f)) ∨ ∃ f, v.restore = some (rbRestore f)) (message : Bytes) :
    (∀ x, deUserTuner H withFeatures P (some v) pointer s message ≠ .ok x) ∧
    ∀ G x, deUserTreeTuner G P (some v) pointer s message ≠ .ok x := by
  have key : ∀ {name : Bytes} {t : UserTuner τ}, createUserTuner (some name) true true true true (some v) pointer = .ok t →
      ∀ h o st, reviveOut (t.revive h o st s) = .err .external := by
    intro name t ht h o st
    have hw := (create_wraps ht).1
    have hr : t.restore = v.restore := hw.restore
    unfold UserTuner.revive reviveOut
    rcases hv with ⟨f, hf⟩ | ⟨f, hf⟩
    · rw [hr, hf]
      simp only [pyRestore, pyRestoreFrom]
      split
      · rfl
      · split <;> rfl
    · rw [hr, hf]
      rfl
  constructor
  · intro x hx
    unfold deUserTuner at hx
    obtain ⟨o, b1, -, hx⟩ := DistObj.rd_bind_ok hx
    obtain ⟨-, b2, -, hx⟩ := DistObj.rd_bind_ok hx
    obtain ⟨ty, b3, -, hx⟩ := DistObj.rd_bind_ok hx
    obtain ⟨-, b4, -, hx⟩ := DistObj.rd_bind_ok hx
    obtain ⟨-, b5, -, hx⟩ := DistObj.rd_bind_ok hx
    obtain ⟨r, b6, -, hx⟩ := DistObj.rd_bind_ok hx
    obtain ⟨state, b7, -, hx⟩ := DistObj.rd_bind_ok hx
    obtain ⟨t, b8, ht, hx⟩ := DistObj.rd_bind_ok hx
    obtain ⟨s', b9, hs, -⟩ := DistObj.rd_bind_ok hx
    cases hc : createUserTuner (some r.name) true true true true (some v) pointer with
    | err e => rw [hc] at ht; cases ht
    | ub => rw [hc] at ht; cases ht
    | ok t' =>
      rw [hc] at ht
      cases ht
      rw [key hc] at hs
      cases hs
  · intro G x hx
    unfold deUserTreeTuner at hx
    obtain ⟨o, b1, -, hx⟩ := DistObj.rd_bind_ok hx
    obtain ⟨-, b2, -, hx⟩ := DistObj.rd_bind_ok hx
    obtain ⟨ty, b3, -, hx⟩ := DistObj.rd_bind_ok hx
    obtain ⟨-, b4, -, hx⟩ := DistObj.rd_bind_ok hx
    obtain ⟨-, b5, -, hx⟩ := DistObj.rd_bind_ok hx
    obtain ⟨r, b6, -, hx⟩ := DistObj.rd_bind_ok hx
    obtain ⟨state, b7, -, hx⟩ := DistObj.rd_bind_ok hx
    obtain ⟨t, b8, ht, hx⟩ := DistObj.rd_bind_ok hx
    obtain ⟨s', b9, hs, -⟩ := DistObj.rd_bind_ok hx
    cases hc : createUserTuner (some r.name) true true true true (some v) pointer with
    | err e => rw [hc] at ht; cases ht
    | ub => rw [hc] at ht; cases ht
    | ok t' =>
      rw [hc] at ht
      cases ht
      rw [key hc] at hs
      cases hs

/-- **C134** fails in Ruby: a user defined tuner with a callback for its state is never written, nor its size computed. -/
theorem C134_ruby_never_written {name : Option Bytes} {space features objectives ret : Bool} {v : UserVector τ} {pointer : BitVec 64}
    {t : UserTuner τ} (ht : createUserTuner name space features objectives ret (some v) pointer = .ok t)
    {f : Bool → τ → τ × Reply Bytes} (hv : v.save = some (rbSave f)) (s : τ) (little : Bool) (pdata : BitVec 64 → Bytes) :
    (∀ ops hp o wr, (t.store ops little hp pdata o s).2 ≠ .ok wr) ∧ (∀ ops hp o n, (t.size ops little hp pdata o s).2 ≠ .ok n) ∧
    (∀ g addr o wr, (t.treeStore little g addr pdata o s).2 ≠ .ok wr) ∧ ∀ g addr o n, (t.treeSize little g addr pdata o s).2 ≠ .ok n := by
  have hw := (create_wraps ht).1
  have hr : t.save = v.save := hw.save
  have h1 : ∀ s, t.stateSize s = (s, .err .external) := by
    intro s
    unfold UserTuner.stateSize
    rw [hr, hv]
    rfl
  have h2 : ∀ s, t.state s = (s, .err .external) := by
    intro s
    unfold UserTuner.state
    rw [h1]
    rfl
  refine ⟨fun ops hp o wr => ?_, fun ops hp o n => ?_, fun g addr o wr => ?_, fun g addr o n => ?_⟩
  · unfold UserTuner.store
    generalize t.gather s = r
    obtain ⟨s1, r⟩ := r
    cases r <;> simp [thenUser, h2]
  · unfold UserTuner.size
    generalize t.gather s = r
    obtain ⟨s1, r⟩ := r
    cases r <;> simp [thenUser, h1]
  · unfold UserTuner.treeStore
    generalize t.gather s = r
    obtain ⟨s1, r⟩ := r
    cases r <;> simp [thenUser, h2]
  · unfold UserTuner.treeSize
    generalize t.gather s = r
    obtain ⟨s1, r⟩ := r
    cases r <;> simp [thenUser, h1]

/-- A tuner in Python whose state is the byte 7, and the same in Ruby. -/
private def exVector (ruby : Bool) : UserVector Nat where
  del := some fun s => (s, .ok ())
  ask := some fun _ _ _ _ s => (s, .ok (none, some 0))
  tell := some fun es s => (s + es.length, .ok ())
  getOptima := some fun _ _ _ _ s => (s, .ok (none, some 0))
  getHistory := some fun _ _ _ _ s => (s, .ok (none, some 0))
  suggest := none
  save := some (if ruby then rbSave fun _ s => (s, .gives [7#8]) else pySave fun _ s => (s, .gives [7#8]))
  restore := some (if ruby then rbRestore fun _ _ _ s => (s, .gives ()) else pyRestore fun _ _ _ s => (s, .gives ()))

example : Displays (exVector false) 0 [] [] [7#8] :=
  C134_python_state_partial (serialize := fun _ s => (s, .gives [7#8])) rfl (fun _ => rfl) (st0 := [])
    ⟨fun _ h => by cases h; rfl, fun _ _ h => absurd rfl h, fun _ h => by cases h; rfl, fun _ _ h => absurd rfl h, fun _ => rfl, nofun, nofun,
      by simp⟩

example : (∃ t, createUserTuner (some []) true true true true (some (exVector true)) 0#64 = .ok t) ∧
    ∃ f, (exVector true).save = some (rbSave f) := ⟨⟨_, rfl⟩, fun _ s => (s, .gives [7#8]), rfl⟩

end CCS.Props
