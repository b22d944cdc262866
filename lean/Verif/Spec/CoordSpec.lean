import Verif.Spec.DataSetSpec
import Verif.Model.EvalModel

/-! The same data with the coordinates in another order and with some axes turned around. -/

open Np GP Matrix

noncomputable section

namespace Spec

/-- The data of `D` are those of `g` in other coordinates: coordinate `d` of `g` is coordinate `σ d` of `D`, and its axis is turned around where
`ε d = -1`. Partial derivatives change with the coordinates; values and noise levels stay. -/
structure Relabelled (σ : Equiv.Perm ℕ) (ε : ℕ → ℝ) (g : Gp) (D : DataSet) : Prop where
  co_lt : ∀ d < g.dim, σ d < g.dim
  sign : ∀ d < g.dim, ε d = 1 ∨ ε d = -1
  x : ∀ p < g.nEval, ∀ d < g.dim, D.x.get p (σ d) = ε d * g.x.get p d
  fval : ∀ p < g.nEval, D.fval.get p = g.fval.get p
  bvec : D.bvec = g.bvec
  grad : ∀ G G', g.grad = some G → D.grad = some G' → ∀ a < g.nGrad, ∀ i < g.dim, G'.get a (σ i) = ε i * G.get a i
  stdF : ∀ s s', g.stdFval = some s → D.stdFval = some s' → ∀ p < g.nEval, s'.get p = s.get p
  stdG : ∀ s s', g.stdGrad = some s → D.stdGrad = some s' → ∀ a < g.nGrad, ∀ i < g.dim, s'.get a (σ i) = s.get a i

/-- The length scales go with their coordinates. -/
def relabelHp (σ : Equiv.Perm ℕ) (hp : HpVals) : HpVals :=
  { hp with theta := hp.theta.map fun th => ⟨th.n, fun d => th.get (σ.symm d)⟩ }

/-- The points in the new coordinates. -/
def relabelPts (σ : Equiv.Perm ℕ) (ε : ℕ → ℝ) (X : Arr2) : Arr2 := ⟨X.r, X.c, fun a d => ε (σ.symm d) * X.get a (σ.symm d)⟩

/-- The same predictions in the new coordinates: means and standard deviations are the same, derivatives follow the coordinates. -/
structure SameIn (σ : Equiv.Perm ℕ) (ε : ℕ → ℝ) {nx dim : ℕ} (o o' : EvalOut nx dim) : Prop where
  mu : o'.mu = o.mu
  sig : o'.sig = o.sig
  dmu : Option.Rel (fun A A' => ∀ (a : Fin nx) (i j : Fin dim), (j : ℕ) = σ i → A' a j = ε i * A a i) o.dmu o'.dmu
  dsig : Option.Rel (fun A A' => ∀ (a : Fin nx) (i j : Fin dim), (j : ℕ) = σ i → A' a j = ε i * A a i) o.dsig o'.dsig
  d2mu : Option.Rel (fun A A' => ∀ i j k l : Fin dim, (k : ℕ) = σ i → (l : ℕ) = σ j → A' k l = ε i * ε j * A i j) o.d2mu o'.d2mu
  d2sig : Option.Rel (Option.Rel fun A A' => ∀ i j k l : Fin dim, (k : ℕ) = σ i → (l : ℕ) = σ j → A' k l = ε i * ε j * A i j) o.d2sig o'.d2sig

end Spec
