import Verif.Model.LkdAll
import Verif.Spec.HpSlots
import Verif.Spec.GpSpec

/-! The optimiser's view of the likelihood. -/

open Np GP Matrix

noncomputable section

namespace Spec

/-- The vector with entry `p` replaced. -/
def setEntry (x : Arr1) (p : ℕ) (t : ℝ) : Arr1 := ⟨x.n, Function.update x.get p t⟩

/-- Every two points coincide or are more than `1e-16` apart in the weighted metric. -/
def StrictSep (X Y : Arr2) (theta : Arr1) : Prop :=
  ∀ p < X.r, ∀ q < Y.r, (∀ d < X.c, X.get p d = Y.get q d) ∨
    (10 : ℝ) ^ (-16 : ℤ) < Real.sqrt (wdist2 X.c theta.get (X.get p) (Y.get q))

/-- The combinations for which the kernel's length-scale derivative is right: values only except for the Matérn kernel;
with gradients either gradients at every point (and for the Matérn kernel no two distinct points that are spuriously close) or the rational
quadratic kernel. -/
structure KernSupp (g : Gp) (th : Arr1) : Prop where
  base : g.useGrad = false → g.kernel ≠ .matern
  grad : g.useGrad = true → (gN g.bvec g.nEval = g.nEval ∧ (g.kernel = .matern → StrictSep g.x g.x th)) ∨ g.kernel = .ratQuad


/-- The cache states that a history of callbacks can produce: at first no vector is stored; a call that succeeds leaves the
state it returns; the reset stores a row of NaNs. -/
inductive CacheReach (g : Gp) (env : LkdEnv) : OptzState env.info.nHp → Prop
  | init (r) : CacheReach g env ⟨none, r⟩
  | val {st st' x v} : CacheReach g env st → returnOptzVal g env st x = .ok (v, st') → CacheReach g env st'
  | grad {st st' x v} : CacheReach g env st → returnOptzGrad g env st x = .ok (v, st') → CacheReach g env st'
  | condVal {st st' x v} : CacheReach g env st → returnCondVal g env st x = .ok (v, st') → CacheReach g env st'
  | condGrad {st st' x v} : CacheReach g env st → returnCondGrad g env st x = .ok (v, st') → CacheReach g env st'
  | reset {st} (n : ℕ) : CacheReach g env st → CacheReach g env { st with last := some ⟨[1, n], fun _ => none⟩ }

end Spec
