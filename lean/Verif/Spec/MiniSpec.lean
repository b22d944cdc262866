import Verif.Model.OptzLoop
import Verif.Spec.OptzSpec
import Verif.Spec.X0Spec

/-! Runs of a minimiser on the likelihood, without the object's cache. -/

open Np GP

noncomputable section

namespace Spec

/-- `r` holds the likelihood, the condition number and their gradients at the vector `x`, computed from scratch. -/
def LkdAt (g : Gp) (env : LkdEnv) (x : Arr1) (r : LkdRes env.info.nHp) : Prop := computeLkd g env x false true = .ok r

/-- The minimiser ends with `res` when every question it asks is answered with the true values `L` of the negative likelihood, of
its gradient, of the condition number and of its gradient. -/
inductive Plays {m : ℕ} (L : Arr1 → LkdRes m → Prop) : Mini m → MinRes → Prop
  | done (r) : Plays L (.done r) r
  | val {x k r res} : L x r → Plays L (k (-r.lkd)) res → Plays L (.val x k) res
  | grad {x k r v res} : L x r → r.grad = some v → Plays L (k fun i => -v i) res → Plays L (.grad x k) res
  | cond {x k r res} : L x r → Plays L (k r.cond) res → Plays L (.cond x k) res
  | condGrad {x k r res} : L x r → Plays L (k r.condGrad) res → Plays L (.condGrad x k) res

/-- `c` is the condition number at the vector `v`. -/
def CondAt (g : Gp) (env : LkdEnv) (v : FVec) (c : ℝ) : Prop := ∃ x r, v.nums = some x ∧ LkdAt g env x r ∧ r.cond = some c

/-- `l` is the objective of the likelihood at the vector `v`. -/
def ObjAt (g : Gp) (env : LkdEnv) (v : FVec) (l : ℝ) : Prop := ∃ x r, v.nums = some x ∧ LkdAt g env x r ∧ l = -r.lkd

/-- A run started at `row` on its own: the result of the minimiser, and with the constraint the condition number at its solution
(a number at the starting point). -/
structure RunFrom (g : Gp) (env : LkdEnv) (min : Arr1 → Mini env.info.nHp) (row : FVec) (o : Run × MinRes) : Prop where
  plays : ∃ x, row.nums = some x ∧ Plays (LkdAt g env) (min x) o.2
  sol : o.1.sol = o.2.x
  obj : o.1.obj = o.2.fn
  start : env.useCstr = true → ∃ c, CondAt g env row c
  cond : env.useCstr = true → ∃ x r, o.2.x.nums = some x ∧ LkdAt g env x r ∧ o.1.cond = r.cond
  free : env.useCstr = false → o.1.cond = none

/-- The rows of a matrix. -/
def rowsOf (x0 : FMat) : List FVec := (List.range x0.r).map x0.row

/-- A minimiser that reports the objective at its solution. -/
def Honest (g : Gp) (env : LkdEnv) (min : Arr1 → Mini env.info.nHp) : Prop :=
  ∀ x res, Plays (LkdAt g env) (min x) res → ∃ l, res.fn = some l ∧ ObjAt g env res.x l

/-- A minimiser that does not report a larger value than the one at its starting point. -/
def Descends (g : Gp) (env : LkdEnv) (min : Arr1 → Mini env.info.nHp) : Prop :=
  ∀ x res r, Plays (LkdAt g env) (min x) res → LkdAt g env x r → ∃ l, res.fn = some l ∧ l ≤ -r.lkd

/-- A run of the loop ends within the limit of the condition number at its solution. -/
def EndsWithin (g : Gp) (env : LkdEnv) (condMax : ℝ) (v : FVec) : Prop :=
  env.useCstr = true → ∃ c, CondAt g env v c ∧ c < 1.01 * condMax

/-- The optimiser for one starting point, as the protocol of `optz_hp` sees it. -/
def miniOpt (g : Gp) (env : LkdEnv) (min : Arr1 → Mini env.info.nHp) (condMax : ℝ) (st : OptzState env.info.nHp) (row : FVec) : Py Run := do
  let s ← loopBody g env min condMax { st := st } row
  match s.runs with
  | (r, _) :: _ => pure r
  | [] => .error .index

end Spec
