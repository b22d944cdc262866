import Verif.Model.OptzHp
import Verif.Spec.GpState
import Verif.Spec.HistSpec
import Verif.Spec.HpSlots

/-! Programs that use a `GaussianProcess` object. -/

open Np GP

noncomputable section

namespace Spec

/-- A call of a method. -/
inductive SOp
  | wellcond (m : Option String)
  | data (d : DataIn)
  | init (n : ℕ)
  | hpara (c : OptzCfg) (q : Oracle) (m : String) (i : ℤ) (hp : Option HpF) (calcCond : Bool)
  | custom (h : HpF)
  | finish (n : ℤ)
  | load (data : Option Exported)

/-- Its effect. -/
def SOp.run (s : Session) : SOp → Session × Py Unit
  | .wellcond m => s.lift (setWellcond m)
  | .data d => s.lift (setData d)
  | .init n => (s.init n, .ok ())
  | .hpara c q m i hp cc => setHpara c q m i hp cc s
  | .custom h => setCustomHp h s
  | .finish n => ((s.put (finishSurr n s.surr).1), (finishSurr n s.surr).2)
  | .load d => ((s.put (loadSurr d s.surr).1), (loadSurr d s.surr).2)

/-- A program; it goes on after an exception. -/
def runOps : List SOp → Session → Session
  | [], s => s
  | a :: l, s => runOps l (a.run s).1

/-- The prior variance is positive, or absent, or NaN. -/
def PosVar (h : HpF) : Prop := ∀ v, h.varK = some (some v) → 0 < v

/-- A hyperparameter object handed to `set_hpara` has a positive prior variance, and so have the rows of a history that is loaded
(or it is NaN in them). -/
def SOp.posSet : SOp → Prop
  | .hpara _ _ _ _ (some h) _ => PosVar h
  | .load (some d) => ∀ k v, (d.h.one .varK).get k = some v → 0 < v
  | _ => True

/-- The model used for prediction belongs to the current hyperparameters and data. -/
def UpToDate (calcCond : Bool) (s : Session) : Prop :=
  ∃ h hp g e, s.hp = some h ∧ h.nums = some hp ∧ s.obj.view = .ok g ∧ setupEvalModel g hp calcCond = .ok e ∧ s.ev = some ⟨g.nData, e⟩ ∧
    s.setupHp = some h

/-- The hyperparameters `hp` are in row `k` of the history (an absent number is NaN). -/
structure HpRow (hp : HpF) (h : Surr) (k : ℕ) : Prop where
  beta : ∀ b, hp.beta = some b → ∀ d < b.n, (h.two .beta).get k d = b.get d
  theta : ∀ t, hp.theta = some t → ∀ d < t.n, (h.two .theta).get k d = t.get d
  kernel : (h.one .kernel).get k = hp.kernel.join
  varK : (h.one .varK).get k = hp.varK.join
  varFval : (h.one .varFval).get k = hp.varFval.join
  varFgrad : (h.one .varFgrad).get k = hp.varFgrad.join

/-- The call does not overwrite what was optimised at iteration `i`: it is neither a new initialisation of the history nor an
optimisation at iteration `i` or at a negative iteration (which counts from the end of the history), it does not cut the history at
iteration `i` or before, and it does not load data that reach iteration `i`. -/
def SOp.keeps (i : ℤ) : SOp → Prop
  | .init _ => False
  | .hpara _ _ m j _ _ => m = "optz" → 0 ≤ j ∧ j ≠ i
  | .finish n => i < n
  | .load (some d) => ((d.h.two .beta).r * (d.h.two .beta).c : ℕ) ≤ i
  | _ => True

/-- A call that neither gives new data, nor changes the method, nor restores hyperparameters from the history (which sets the flags on
the noise). It may raise. -/
def SOp.sameData : SOp → Prop
  | .wellcond _ => False
  | .data _ => False
  | .hpara _ _ m _ _ _ => m ≠ "stored"
  | .init _ => True
  | .custom _ => True
  | .finish _ => True
  | .load _ => True

/-- The hyperparameters `hv` after an optimisation: those of the layout are the decoded entries of some vector, those outside of it are
absent; the coefficients of the mean (and for noise-free data the prior variance) are those that the likelihood code reports for
them. -/
structure Solved (c : OptzCfg) (q : Oracle) (st : GpStatic) (o : GpObj) (hv : HpVals) : Prop where
  ex : ∃ (info : HpInfo) (k v f g : Bool) (gp : Gp) (x : Arr1) (hp0 : HpVals) (r : LkdInfo nBetaCoeff info.nHp × Bool),
    o.info = some info ∧ (∃ a b d, setHpOptzInfo st.log st.dim a b d true k v f g = .ok info) ∧ o.view = .ok gp ∧
    x.n = (hpSlots st.dim true k v f g).length ∧
    (∀ p s, (hpSlots st.dim true k v f g)[p]? = some s → getSlot hp0 s = some (natural st.log s (x.get p))) ∧
    (∀ s, s ∉ hpSlots st.dim true k v f g → getSlot hp0 s = none) ∧ (∃ th, hp0.theta = some th ∧ th.n = st.dim) ∧
    calcLkdAll gp (o.env c q info) hp0 false false = .ok r ∧
    hv = { hp0 with beta := hv.beta, varK := hv.varK } ∧
    (hv.beta = none ↔ r.1.beta = none) ∧
    (∀ β, r.1.beta = some β → ∃ b, hv.beta = some b ∧ b.n = nBetaCoeff ∧ ∀ j : Fin nBetaCoeff, b.get j = β j) ∧
    hv.varK = if gp.noisy then hp0.varK else r.1.varK

end Spec
