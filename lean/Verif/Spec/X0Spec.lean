import Verif.Model.HpX0
import Verif.Spec.HpSlots

/-! Ranges and past values of the hyperparameters, and what is required of bounds, starting points and the selection of runs. -/

open Np GP

noncomputable section

namespace Spec

/-- The range that the options (for the kernel parameter: the kernel) give to a hyperparameter. -/
def rangeOf (o : X0Opts) : Slot → Option (ℝ × ℝ)
  | .theta _ => some o.thetaRange
  | .kernel => o.kernelRange
  | .varK => some o.varKRange
  | .varFval => some o.varFvalRange
  | .varFgrad => some o.varFgradRange

/-- The value of a hyperparameter in row `k` of the history. -/
def past (h : Surr) (s : Slot) (k : ℕ) : Fl :=
  match s with
  | .theta d => (h.two .theta).get k d
  | .kernel => (h.one .kernel).get k
  | .varK => (h.one .varK).get k
  | .varFval => (h.one .varFval).get k
  | .varFgrad => (h.one .varFgrad).get k

/-- A proper range of positive numbers. -/
def GoodRange (r : Option (ℝ × ℝ)) : Prop := ∃ lo hi, r = some (lo, hi) ∧ 0 < lo ∧ lo < hi

/-- Options with proper ranges, for a model with kernel `kt`; at least one past row counts. -/
structure GoodOpts (o : X0Opts) (kt : KType) : Prop where
  theta : 0 < o.thetaRange.1 ∧ o.thetaRange.1 < o.thetaRange.2
  varK : 0 < o.varKRange.1 ∧ o.varKRange.1 < o.varKRange.2
  varFval : 0 < o.varFvalRange.1 ∧ o.varFvalRange.1 < o.varFvalRange.2
  varFgrad : 0 < o.varFgradRange.1 ∧ o.varFgradRange.1 < o.varFgradRange.2
  kernel : o.kernelRange = hpKernelRange kt
  medianN : 1 ≤ o.medianN

/-- The rows looked at in iteration `i`: the last `N` before it. -/
def Recent (N i k : ℕ) : Prop := k < i ∧ i ≤ k + N

/-- All recent values of the hyperparameter are numbers, positive or (for a variance) zero. -/
def PastOk (h : Surr) (N i : ℕ) (s : Slot) : Prop :=
  ∀ k, Recent N i k → ∃ x, past h s k = some x ∧ 0 ≤ x ∧ ((∃ d, s = .theta d) → 0 < x)

/-- Are past values of this hyperparameter used for the bounds in iteration `i`? -/
def usesPast (constN i : ℕ) : Slot → Prop
  | .theta _ => True
  | .varFgrad => True
  | .varK => constN + 1 < i
  | .varFval => constN + 1 < i
  | .kernel => False

/-- The length scales share their bounds, so that their past values count together. -/
def Sibling (s s' : Slot) : Prop := s' = s ∨ ((∃ d, s = .theta d) ∧ ∃ d, s' = .theta d)

/-- What is required of the sampling method: for proper limits of at least two variables it returns `n` points within them. -/
def SamplerOk (lhs : Sampler) : Prop :=
  ∀ (lb ub : FVec) (n : ℕ), 2 ≤ lb.n → ub.n = lb.n →
    (∀ p < lb.n, ∃ l u, lb.get p = some l ∧ ub.get p = some u ∧ l ≤ u) →
    (lhs lb ub n).r = n ∧ (lhs lb ub n).c = lb.n ∧
      ∀ k < n, ∀ p < lb.n, ∃ x l u, (lhs lb ub n).get k p = some x ∧ lb.get p = some l ∧ ub.get p = some u ∧ l ≤ x ∧ x ≤ u

/-- Row `k` of the evaluated starting points (success of the factorisation, log-likelihood, condition number) may be chosen: the
factorisation succeeded and, if condition numbers matter, the condition number is at most `1.2` times the limit or is NaN; if all
condition numbers exceed this, only the rows of least condition number may be chosen. -/
def Acceptable (calcCond : Bool) (condMax : ℝ) (n : ℕ) (out : ℕ → Bool × Fl × Fl) (k : ℕ) : Prop :=
  (out k).1 = true ∧
    (calcCond = true → (∀ c, (out k).2.2 = some c → c ≤ 1.2 * condMax) ∨
      ((∀ j < n, (out j).1 = true ∧ ∃ c, (out j).2.2 = some c ∧ 1.2 * condMax < c) ∧
        (∀ j < n, ∀ c c', (out k).2.2 = some c → (out j).2.2 = some c' → c ≤ c') ∧
        ∀ j < k, (out j).2.2 ≠ (out k).2.2))

/-- The run satisfies the limit on the condition number (always, if there is none). -/
def GoodRun (useCstr : Bool) (condMax : ℝ) (r : Run) : Prop :=
  useCstr = true → ∃ c, r.cond = some c ∧ c < 1.01 * condMax

end Spec
