import Verif.Model.EvalModel

/-! `eval_model` when the linear systems are not solved exactly (`linalg.cho_solve` in floating point arithmetic). -/

open Np Matrix

noncomputable section

namespace GP

open Classical in
/-- `eval_model` without data scaling, without `squeeze_nx` and without Hessians: eval/GpEvalModel.py:59-198, as `evalModel` but with
the solution of the linear systems with the matrix `Kyx` on the right-hand side (line 155) given by `solve`. All other arithmetic is exact. The
weights `self.invKernEta_fdiff`, which `setup_eval_model` computes by another linear solve, are those in `st`. -/
def evalModelBy (g : Gp) {X : Arr2} (solve : Mat g.nData X.r → Mat g.nData X.r) (st : EvalState g.nData) (hp : HpVals) (calcGrad : Bool) :
    Py (EvalOut X.r g.dim) :=
  match st.chofac with
  | none => .error .assertion                                                                   -- line 92
  | some F =>
    if hp ≠ st.hp then .error .raised                                                           -- lines 108-114
    else do
      let beta ← need hp.beta
      let varK ← need hp.varK
      let sigK := Real.sqrt varK                                                                -- line 122
      let K ← crossKern g hp X calcGrad
      if K.1.r = g.nData ∧ K.1.c = X.r then
        let Kyx : Mat g.nData X.r := toMat g.nData X.r K.1
        let kinv := solve Kyx                                                                   -- line 155
        let w ← need st.w
        let mf ← evalMeanFun g.dim nBetaCoeff X beta none calcGrad false                        -- lines 159-161
        let sig2 : Vec X.r := fun a => 1 - (Kyxᵀ * kinv) a a                                    -- line 163
        if X.r = 0 then .error .shape
        else do
          pyAssert (∀ a, 0 ≤ sig2 a)                                                            -- line 164
          let sig : Vec X.r := fun a => Real.sqrt (if sig2 a < 0 then 0 else sig2 a) * sigK     -- lines 166-167
          let mu : Vec X.r := fun a => mf.1.get a + (Kyxᵀ *ᵥ w) a                               -- line 169
          evalDerivs g hp X F w K.2 kinv mf.2.1 mu sig sigK calcGrad false
      else .error .shape

end GP
