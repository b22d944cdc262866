import Verif.Spec.Session
import Verif.Spec.X0Spec
import Verif.Spec.CondNumSpec

/-! What an optimisation records. -/

open Np GP

noncomputable section

namespace Spec

/-- `r` is the run that is kept: the optimiser returned it for one of the starting points, it satisfies the limit on the condition
number if any run does, and its objective is the smallest one among the runs that do (among all runs if none does). -/
def BestRun (opt : FVec → Py Run) (useCstr : Bool) (condMax : ℝ) (x0 : FMat) (r : Run) : Prop :=
  ∃ out : ℕ → Run, (∀ j < x0.r, opt (x0.row j) = .ok (out j)) ∧ ∃ k < x0.r, r = out k ∧
    ((∃ j < x0.r, GoodRun useCstr condMax (out j)) → GoodRun useCstr condMax r) ∧
    ∃ x, r.obj = some x ∧ ∀ j < x0.r, ((∃ j' < x0.r, GoodRun useCstr condMax (out j')) → GoodRun useCstr condMax (out j)) →
      ∀ y, (out j).obj = some y → x ≤ y

/-- The hyperparameters `hv` are those of the vector `x` of the optimiser in the layout `info` of the object (`10**x` where the
logarithm is optimised). -/
def DecodedFrom (st : GpStatic) (o : GpObj) (x : Arr1) (hv : HpVals) : Prop :=
  ∃ (info : HpInfo) (k v f g : Bool), o.info = some info ∧ (∃ a b d, setHpOptzInfo st.log st.dim a b d true k v f g = .ok info) ∧
    x.n = (hpSlots st.dim true k v f g).length ∧
    ∀ p s, (hpSlots st.dim true k v f g)[p]? = some s → getSlot hv s = some (natural st.log s (x.get p))

/-- The hyperparameters that are optimised for the data `d`: the length scales, the kernel parameter if there is one and the options
ask for it, the prior variance unless the data are noise-free, and the noise variances where the noise is unknown. -/
def Optimised (st : GpStatic) (d : DataIn) : Slot → Prop
  | .theta k => k < st.dim
  | .kernel => st.optKernel = true ∧ kernelHasHp st.kernel = true
  | .varK => ¬ (NoiseZero d.stdFval ∧ (st.useGrad = false ∨ NoiseZero d.stdGrad))
  | .varFval => NoiseUnknown d.stdFval
  | .varFgrad => st.useGrad = true ∧ NoiseUnknown d.stdGrad

/-- The starting points are numbers within the box. -/
def StartsInBox (p : StartPts) : Prop :=
  ∀ j < p.x0.r, ∃ x, (p.x0.row j).nums = some x ∧ x.n = p.lb.n ∧
    ∀ k < x.n, ∀ l u, p.lb.get k = some l → p.ub.get k = some u → l ≤ x.get k ∧ x.get k ≤ u

/-- From each of the starting points the optimiser returns a number as objective, and a solution within the box. -/
def RespectsBox (opt : FVec → Py Run) (p : StartPts) : Prop :=
  ∀ j < p.x0.r, ∃ r x, opt (p.x0.row j) = .ok r ∧ r.obj ≠ none ∧ r.sol.nums = some x ∧ x.n = p.lb.n ∧
    ∀ k < x.n, ∀ l u, p.lb.get k = some l → p.ub.get k = some u → l ≤ x.get k ∧ x.get k ≤ u

end Spec
