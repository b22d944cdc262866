import Verif.Model.HpOptz
import Verif.Spec.HpSpec
import Mathlib.Analysis.SpecialFunctions.Log.Base

/-! Hyperparameters as named slots, and the order in which the optimiser's vector lists them. -/

open Np GP

noncomputable section

namespace Spec

/-- One scalar hyperparameter. -/
inductive Slot where
  | theta (d : ℕ)
  | kernel
  | varK
  | varFval
  | varFgrad
  deriving DecidableEq

/-- The optimised hyperparameters, in the order of the optimiser's vector. -/
def hpSlots (dim : ℕ) (theta kernel varK varFval varFgrad : Bool) : List Slot :=
  (if theta then (List.range dim).map Slot.theta else []) ++ (if kernel then [Slot.kernel] else []) ++
    (if varK then [Slot.varK] else []) ++ (if varFval then [Slot.varFval] else []) ++ (if varFgrad then [Slot.varFgrad] else [])

/-- Is the slot optimised through its logarithm? -/
def slotLog (lo : LogOpts) : Slot → Bool
  | .theta _ => lo.theta
  | .kernel => lo.kernel
  | .varK => lo.var
  | .varFval => lo.var
  | .varFgrad => lo.var

/-- The value of a slot, if present. -/
def getSlot (hp : HpVals) : Slot → Option ℝ
  | .theta d => match hp.theta with
    | some t => if d < t.n then some (t.get d) else none
    | none => none
  | .kernel => hp.kernel
  | .varK => hp.varK
  | .varFval => hp.varFval
  | .varFgrad => hp.varFgrad

/-- The hyperparameters with one slot replaced. -/
def setSlot (hp : HpVals) (s : Slot) (t : ℝ) : HpVals :=
  match s with
  | .theta d => { hp with theta := hp.theta.map fun th => setTheta th d t }
  | .kernel => { hp with kernel := some t }
  | .varK => { hp with varK := some t }
  | .varFval => { hp with varFval := some t }
  | .varFgrad => { hp with varFgrad := some t }

/-- The position that the layout record assigns to a slot. -/
def slotPos (info : HpInfo) : Slot → Option ℕ
  | .theta d => if info.hasTheta then info.idxTheta[d]? else none
  | .kernel => if info.hasKernel then some info.idxKernel else none
  | .varK => if info.hasVarK then some info.idxVarK else none
  | .varFval => if info.hasVarFval then some info.idxVarFval else none
  | .varFgrad => if info.hasVarFgrad then some info.idxVarFgrad else none

/-- The natural value of an optimiser variable: `10**x` where the slot is optimised through its logarithm. -/
def natural (lo : LogOpts) (s : Slot) (x : ℝ) : ℝ := if slotLog lo s then (10 : ℝ) ^ x else x

/-- Its inverse on positive numbers. -/
def encoded (lo : LogOpts) (s : Slot) (y : ℝ) : ℝ := if slotLog lo s then Real.logb 10 y else y

/-- The optimised hyperparameters of a model: the length scales; the kernel parameter if the kernel has one and the option to
optimise it is on; the variance if the data are noisy; each noise variance that the user did not supply. -/
def gpSlots (g : Gp) (optKernel : Bool) : List Slot :=
  hpSlots g.dim true (optKernel && kernelHasHp g.kernel) g.noisy (!g.knownFval) (g.useGrad && !g.knownFgrad)

end Spec
