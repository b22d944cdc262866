import Verif.Spec.Ready

/-! Functions with a bounded norm in the native space of a kernel. -/

open Np GP

noncomputable section

namespace Spec

/-- `h` belongs to the native space (the reproducing kernel Hilbert space) of the kernel `κ` and its norm there is at most `B`:
`(∑ a_i h(x_i))² ≤ B² ∑ a_i a_j κ(x_i, x_j)` for every finite list of points and weights. -/
def NormLe (κ : Pt → Pt → ℝ) (h : Pt → ℝ) (B : ℝ) : Prop :=
  ∀ (n : ℕ) (x : Fin n → Pt) (a : Fin n → ℝ), (∑ i, a i * h (x i)) ^ 2 ≤ B ^ 2 * ∑ i, ∑ j, a i * a j * κ (x i) (x j)

/-- The data of `g` are those of the function `h` plus the errors `e`: values at all points, partial derivatives at the points
with gradients (in the order of the data vector). -/
structure Observes (g : Gp) (h : Pt → ℝ) (e : ℕ → ℝ) : Prop where
  val : ∀ p < g.nEval, g.fval.get p = h (g.x.get p) + e p
  grad : ∀ A, g.grad = some A → ∀ r < g.nGrad, ∀ i < g.dim,
    HasDerivAt (fun t => h (Function.update (g.x.get (gSel g.bvec r)) i t)) (A.get r i - e (g.nEval + i * g.nGrad + r))
      (g.x.get (gSel g.bvec r) i)

/-- What is added to the diagonal of the unit-variance kernel matrix `K`: the noise variances `N` and the nugget `η`, which with
preconditioning is relative to the diagonal. -/
def tau (g : Gp) (K : Mat g.nData g.nData) (N : Vec g.nData) (η : ℝ) (q : Fin g.nData) : ℝ :=
  N q + η * (if g.o.precon then K q q + N q else 1)

end Spec
