import Verif.Model.Distribution
import Verif.Spec.Num

/-!
# Specification of distributions
-/

namespace CCS.Spec

open CCS

/-- The distributions a program can create. -/
inductive Made {σ : Type} (M : Machine σ) : Sampler σ → Prop
  | uniform {t lower upper log q d} : createUniform M t lower upper log q = .ok d → Made M d
  | normal {t mu sigma log q d} : createNormal M t mu sigma log q = .ok d → Made M d
  | roulette {areas d} : createRouletteDistribution M areas = .ok d → Made M d
  | mixture {ds weights d} : (∀ x ∈ ds, Made M x) → createMixture M ds weights = .ok d → Made M d
  | multivariate {ds d} : (∀ x ∈ ds, Made M x) → createMultivariate ds = .ok d → Made M d

/-- A table of samples, row after row. -/
abbrev Rows := List (List (BitVec 64))

/-- The sample of row `r` and column `c`. -/
def Rows.at (rows : Rows) (r c : Nat) : Option (BitVec 64) := (rows[r]?).bind (·[c]?)

/-- The memory `m'` holds the table at the addresses `addr row column`, and is otherwise `m`. -/
def Placed (n dim : Nat) (addr : Nat → Nat → Nat) (rows : Rows) (m m' : Nat → BitVec 64) : Prop :=
  (∀ r c v, rows.at r c = some v → m' (addr r c) = v) ∧ ∀ a, (∀ r c, r < n → c < dim → a ≠ addr r c) → m' a = m a

/-- From the generator `g`, whatever the memory, a call ends as `out` says; when it succeeds it writes the `n` rows of
`dim` samples of `out` at the addresses `addr`, and nothing else. -/
def Fills {σ : Type} (call : Act σ) (n dim : Nat) (addr : Nat → Nat → Nat) (g : σ) (out : Option (Out (Rows × σ))) : Prop :=
  match out with
  | none => ∀ m, call ⟨g, m⟩ = none
  | some .ub => ∀ m, call ⟨g, m⟩ = some .ub
  | some (.err e) => ∀ m, call ⟨g, m⟩ = some (.err e)
  | some (.ok (rows, g')) => rows.length = n ∧ (∀ row ∈ rows, row.length = dim) ∧
    ∀ m, ∃ m', call ⟨g, m⟩ = some (.ok ⟨g', m'⟩) ∧ Placed n dim addr rows m m'

/-- Columns of `n` cells at the given addresses, none overlapping another. -/
def Apart (n : Nat) (cols : List Nat) : Prop :=
  ∀ (i j : Nat) (a b : Nat), cols[i]? = some a → cols[j]? = some b → i ≠ j → a + n ≤ b ∨ b + n ≤ a

/-- The address of row `r` of column `c`. -/
def colAddr (cols : List Nat) (r c : Nat) : Nat := cols.getD c 0 + r

/-- `out` is what sampling `n` values of `d` from the generator `g` makes, whichever way it is asked: contiguous, with a
stride, with one array for each column, or one sample alone. -/
structure Layouts {σ : Type} (d : Sampler σ) (n : Nat) (g : σ) (out : Option (Out (Rows × σ))) : Prop where
  contiguous : ∀ base, Fills (d.callSamples n (some base)) n d.dim (fun r c => base + r * d.dim + c) g out
  strided : ∀ stride base, d.dim ≤ stride →
    Fills (d.callStrided n stride (some base)) n d.dim (fun r c => base + r * stride + c) g out
  columns : ∀ cols, d.dim ≤ cols.length → Apart n cols → Fills (d.callSoa n (cols.map .cell)) n d.dim (colAddr cols) g out
  single : n = 1 → ∀ base, Fills (d.sample base) 1 d.dim (fun _ c => base + c) g out

/-- The components sampled one after the other, their tables side by side; the first failure is the result. -/
inductive InTurn {σ : Type} (n : Nat) : List (Sampler σ) → σ → Option (Out (Rows × σ)) → Prop
  | nil {g} : InTurn n [] g (some (.ok (List.replicate n [], g)))
  | cons {d ds g rows g1 rest g2} : Layouts d n g (some (.ok (rows, g1))) → InTurn n ds g1 (some (.ok (rest, g2))) →
      InTurn n (d :: ds) g (some (.ok (List.zipWith (· ++ ·) rows rest, g2)))
  | stop {d ds g o} : Layouts d n g o → (∀ x, o ≠ some (.ok x)) → InTurn n (d :: ds) g o
  | later {d ds g rows g1 o} : Layouts d n g (some (.ok (rows, g1))) → InTurn n ds g1 o → (∀ x, o ≠ some (.ok x)) →
      InTurn n (d :: ds) g o

/-- Every row is one sample of one of the components, drawn after one draw of the generator. -/
inductive Picks {σ : Type} (M : Machine σ) (ds : List (Sampler σ)) : Nat → σ → Rows → σ → Prop
  | nil {g} : Picks M ds 0 g [] g
  | cons {n g d row g1 rows g2} : d ∈ ds → Layouts d 1 (M.uniform g).2 (some (.ok ([row], g1))) → Picks M ds n g1 rows g2 →
      Picks M ds (n + 1) g (row :: rows) g2

/-- `gsl_rng_uniform_int`: an integer below `n` for `n` from 1 to the range of the generator, else the error handler. -/
def GslInt {σ : Type} (M : Machine σ) (range : Nat) : Prop :=
  ∀ g n, (1 ≤ n.toNat → n.toNat ≤ range → ∃ v g', M.uniformInt g n = some (v, g') ∧ v.toNat < n.toNat) ∧
    (n.toNat = 0 ∨ range < n.toNat → M.uniformInt g n = none)

/-- Two of the intervals have the same lower bound, or the same upper bound, `v`, that one includes and the other does
not. -/
def Disputed (t : NumType) (l : List Interval) (v : BitVec 64) : Prop :=
  ∃ x ∈ l, ∃ y ∈ l,
    (num t v = num t x.lower ∧ num t v = num t y.lower ∧ x.lowerIncl ≠ 0#32 ∧ y.lowerIncl = 0#32) ∨
    (num t v = num t x.upper ∧ num t v = num t y.upper ∧ x.upperIncl ≠ 0#32 ∧ y.upperIncl = 0#32)

/-- How many values a linear uniform integer distribution chooses from. -/
def steps (lower upper q : BitVec 64) : Int :=
  if q = 0#64 then upper.toInt - lower.toInt else (upper.toInt - lower.toInt) / q.toInt

/-- Every sample is within the bounds reported for its column. -/
def Within (bounds : List Interval) (rows : Rows) : Prop :=
  ∀ row ∈ rows, ∀ (c : Nat) (v : BitVec 64) (b : Interval), row[c]? = some v → bounds[c]? = some b → Mem b v

/-- All the samples a distribution ever gives, in any layout, are within the bounds it reports. -/
def KeepsBounds {σ : Type} (d : Sampler σ) : Prop :=
  ∀ n g rows g', Layouts d n g (some (.ok (rows, g'))) → Within d.bounds rows

end CCS.Spec
